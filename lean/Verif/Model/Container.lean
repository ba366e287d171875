import Verif.Model.ByteString
import Verif.Model.AttrList
/-!
# Typed components, containers, keys and ciphertexts

include/abe/zinteger.h, src/lsss/zelement_bp.cpp (the codecs), src/abe/zcontainer.cpp,
src/abe/zciphertext.cpp, src/abe/zkey.cpp and the import half of src/abe/zkeystore.cpp.

Pointers to components are values (`Obj.null` is a null pointer); leaked memory is not modelled. The
group pointer of a container is assumed to be set, as every constructor of keys and ciphertexts does
(zcontainer.cpp:56-58). When a call raises, the state it leaves behind is only modelled for
`getComponent`.
-/
set_option autoImplicit false
namespace Abe

/-! ## Numbers -/

/-- `zmbignum_countbytes` / `zmbignum_toBin` (used at src/lsss/zelement_bp.cpp:397-401): the big-endian
magnitude without leading zeros. -/
def natBE (n : Nat) : Bytes :=
  if _h : n = 0 then [] else natBE (n / 256) ++ [UInt8.ofNat n]
decreasing_by omega

/-- include/abe/zinteger.h:85-98 and include/lsss/zinteger.h:86-99 `OpenABEUInteger::serialize`. -/
def UInteger.serialize (n : UInteger) : Bytes := 0xA1 :: BS.be32 n.val.toNat

/-- The four reads of zinteger.h:104-107 (abe) and 104-107 (lsss). -/
def UInteger.read (input : Bytes) : Res UInt32 := do
  let b1 ← BS.atR input 1
  let b2 ← BS.atR input 2
  let b3 ← BS.atR input 3
  let b4 ← BS.atR input 4
  .ok (UInt32.ofNat (BS.beVal [b1, b2, b3, b4]))

/-- include/lsss/zinteger.h:101-109 `deserialize`: the tag is not looked at, the width is kept. -/
def UInteger.deserialize (this : UInteger) (input : Bytes) : Res UInteger := do
  let v ← UInteger.read input
  .ok { this with val := v }

/-- include/abe/zinteger.h:100-109 `deserialize`: the same with a check of the tag. Both headers define the
class `OpenABEUInteger`; zcontainer.cpp is compiled against this one. -/
def UInteger.deserializeChecked (this : UInteger) (input : Bytes) : Res UInteger := do
  let tag ← BS.atR input 0
  if tag ≠ 0xA1 then .throw .serializationFailed
  else UInteger.deserialize this input

/-! ## Group elements -/

/-- What RELIC does for the group codecs: the group order and the binary formats of the three groups
(`g1_write_bin`, `g1_read_bin`, ... ; outside /repo). A read may fail in any way. -/
structure Codec (G1 G2 GT : Type) where
  order : Nat
  /-- `G1::getDefaultSize`, `G2::getDefaultSize` (zelement_bp.cpp:483-486, 657-660) -/
  n1 : Nat
  n2 : Nat
  w1 : G1 → Bytes
  r1 : Bytes → Res G1
  w2 : G2 → Bytes
  r2 : Bytes → Res G2
  wT : GT → Bytes
  rT : Bytes → Res GT

/-- A `ZObject` as a container holds it. -/
inductive Obj (G1 G2 GT : Type) where
  | null
  | int (n : UInteger)
  | zp (v : Nat)
  | g1 (x : G1)
  | g2 (x : G2)
  | gt (x : GT)
  | bytes (b : Bytes)
  | attrs (l : AttrList)
  | policy (p : Policy)

variable {G1 G2 GT : Type}

/-- zelement_bp.cpp:341-346, 395-405 `ZP::serialize`. -/
def zpSerialize (v : Nat) : Bytes := 0xB1 :: (BS.be16 (natBE v).length ++ natBE v)

/-- zelement_bp.cpp:349-366 `ZP::deserialize` on a fresh `ZP` (value 0) whose order is set. The bytes are read
through a raw pointer: a length beyond the input is undefined. -/
def zpDeserialize (order : Nat) (input : Bytes) : Res Nat := do
  let tag ← BS.atR input 0
  if tag = 0xB1 ∧ 3 < input.length then do
    let lo ← BS.atR input 2
    let hi ← BS.atR input 1
    let len := hi.toNat * 256 + lo.toNat
    if input.length < 3 + len then .ub
    else
      let v := BS.beVal ((input.drop 3).take len)
      .ok (if order < v then v % order else v)
  else .ok 0

/-- zelement_bp.cpp:548-560 `G1::serialize`, 714-726 `G2::serialize`, 859-871 `GT::serialize` (the element is
always initialised). -/
def groupSerialize (tag : UInt8) (bytes : Bytes) : Bytes := BS.smartPack [tag] bytes

/-- zelement_bp.cpp:562-571 and 429-438 `G1::deserialize`, 728-737 `G2::deserialize`: a size other than 1 and the
default ends the process. The tag has been checked by the caller. -/
def groupDeserialize {α : Type} (size : Nat) (read : Bytes → Res α) (input : Bytes) : Res α := do
  let (b, _) ← BS.smartUnpack input 1
  if b.length ≠ 1 ∧ b.length ≠ size then .abort
  else read b

/-- zelement_bp.cpp:873-881 `GT::deserialize`: no size check. -/
def gtDeserialize {α : Type} (read : Bytes → Res α) (input : Bytes) : Res α := do
  let (b, _) ← BS.smartUnpack input 1
  read b

/-- The `clone` methods (include/lsss/zobject.h:57, zelement_bp.h:121, 160, 200, 239, zbytestring.h:154,
zattributelist.h:76, zinteger.h:63). `OpenABEPolicy::clone` is commented out (zpolicy.h:143), so the
default runs and returns a null pointer. -/
def Obj.clone : Obj G1 G2 GT → Res (Obj G1 G2 GT)
  | .null => .ub
  | .policy _ => .ok .null
  | o => .ok o

/-- The `serialize` methods. `OpenABEPolicy::serialize` (src/lsss/zpolicy.cpp:101) writes nothing. -/
def Obj.serialize (cd : Codec G1 G2 GT) : Obj G1 G2 GT → Res Bytes
  | .null => .ub
  | .int n => .ok n.serialize
  | .zp v => .ok (zpSerialize v)
  | .g1 x => .ok (groupSerialize 0xB2 (cd.w1 x))
  | .g2 x => .ok (groupSerialize 0xB3 (cd.w2 x))
  | .gt x => .ok (groupSerialize 0xB4 (cd.wT x))
  | .bytes b => .ok (BS.serialize b)
  | .attrs l => .ok l.compact
  | .policy _ => .ok []

/-- The `isEqual` methods with a non-null argument: different dynamic types are unequal; byte strings inherit
the default `false` (zbytestring.h:270 is commented out, zobject.h:59); policies are never stored. -/
def Obj.isEqual [DecidableEq G1] [DecidableEq G2] [DecidableEq GT] :
    Obj G1 G2 GT → Obj G1 G2 GT → Res Bool
  | .null, _ => .ub
  | .int a, .int b => .ok (a.val == b.val && a.bits == b.bits)
  | .zp a, .zp b => .ok (a == b)
  | .g1 a, .g1 b => .ok (a == b)
  | .g2 a, .g2 b => .ok (a == b)
  | .gt a, .gt b => .ok (a == b)
  | .attrs a, .attrs b => a.isEqual b
  | _, _ => .ok false

/-! ## Containers -/

/-- `OpenABEContainer::val` (include/abe/zcontainer.h:50). -/
abbrev Container (G1 G2 GT : Type) := SMap (Obj G1 G2 GT)

namespace Container

/-- zcontainer.cpp:84-88 `setComponent`. -/
def setComponent (c : Container G1 G2 GT) (name : Bytes) (o : Obj G1 G2 GT) : Res (Container G1 G2 GT) := do
  let copy ← o.clone
  .ok (SMap.insert name copy c)

/-- zcontainer.cpp:97-106 `getComponent`: `val[name]` adds a null entry for a missing name. -/
def getComponent (c : Container G1 G2 GT) (name : Bytes) : Res (Obj G1 G2 GT) × Container G1 G2 GT :=
  match SMap.find name c with
  | none => (.throw .elementNotFound, SMap.insert name .null c)
  | some .null => (.throw .elementNotFound, c)
  | some o => (.ok o, c)

/-- zcontainer.cpp:108-116 `deleteComponent`. -/
def deleteComponent (c : Container G1 G2 GT) (name : Bytes) : Bool × Container G1 G2 GT :=
  if (SMap.find name c).isSome then (true, SMap.erase name c) else (false, c)

/-- zcontainer.cpp:124. -/
def numComponents (c : Container G1 G2 GT) : Nat := c.length

/-- zcontainer.cpp:135-144 `serialize` into an empty `result`. -/
def serialize (cd : Codec G1 G2 GT) : Container G1 G2 GT → Res Bytes
  | [] => .ok []
  | (k, o) :: c => do
    let b ← o.serialize cd
    let rest ← serialize cd c
    .ok (BS.smartPack (BS.smartPack [] k) b ++ rest)

/-- zcontainer.cpp:146-206 `deserializeElement`, the object made from `value` (`none`: nothing is stored). -/
def readObj (mk : Mktime) (cd : Codec G1 G2 GT) (value : Bytes) : Res (Option (Obj G1 G2 GT)) :=
  match value with
  | [] => .throw .invalidInput
  | ty :: _ =>
    if ty = 0xA1 then do
      let n ← UInteger.deserializeChecked ⟨0, 0⟩ value
      .ok (some (.int n))
    else if ty = 0xB1 then do
      let v ← zpDeserialize cd.order value
      .ok (some (.zp v))
    else if ty = 0xB2 then do
      let x ← groupDeserialize cd.n1 cd.r1 value
      .ok (some (.g1 x))
    else if ty = 0xB3 then do
      let x ← groupDeserialize cd.n2 cd.r2 value
      .ok (some (.g2 x))
    else if ty = 0xB4 then do
      let x ← gtDeserialize cd.rT value
      .ok (some (.gt x))
    else if ty = 0x1D then .ok (some (.bytes (BS.deserialize [] value)))
    else if ty = 0x7A then do
      let r ← createPolicyTree mk value
      match r with
      | none => .throw .invalidPolicyTree
      | some p => .ok (some (.policy p))
    else if ty = 0x7C then do
      let r ← createAttributeList mk value
      match r with
      | none => .throw .invalidAttributeList
      | some l => .ok (some (.attrs l))
    else if ty = 0xC1 ∨ ty = 0xC2 then .ok none
    else .throw .invalidInputType

/-- zcontainer.cpp:146-206 `deserializeElement`. -/
def deserializeElement (mk : Mktime) (cd : Codec G1 G2 GT) (c : Container G1 G2 GT) (key value : Bytes) :
    Res (Container G1 G2 GT) := do
  let r ← readObj mk cd value
  match r with
  | none => .ok c
  | some o => setComponent c key o

/-- zcontainer.cpp:213-217, the loop. The fuel bounds the number of passes; every pass advances the index by
at least two, `deserialize` gives enough. -/
def deserLoop (mk : Mktime) (cd : Codec G1 G2 GT) (blob : Bytes) :
    Nat → Nat → Container G1 G2 GT → Res (Container G1 G2 GT)
  | 0, _, _ => .abort
  | fuel + 1, index, c => do
    let (key, i) ← BS.smartUnpack blob index
    let (value, j) ← BS.smartUnpack blob i
    let c' ← deserializeElement mk cd c key value
    if j < blob.length then deserLoop mk cd blob fuel j c' else .ok c'

/-- zcontainer.cpp:208-219 `deserialize` into the container `c`. -/
def deserialize (mk : Mktime) (cd : Codec G1 G2 GT) (c : Container G1 G2 GT) (blob : Bytes) :
    Res (Container G1 G2 GT) :=
  deserLoop mk cd blob (blob.length + 1) 0 c

/-- zcontainer.cpp:252-261, the comparison of the values. -/
def eqLoop [DecidableEq G1] [DecidableEq G2] [DecidableEq GT] (c1 c2 : Container G1 G2 GT) :
    List Bytes → Nat → Res Nat
  | [], diff => .ok diff
  | k :: ks, diff => do
    let lhs ← (getComponent c1 k).1
    let rhs ← (getComponent c2 k).1
    let e ← lhs.isEqual rhs
    eqLoop c1 c2 ks (if e then diff else diff + 1)

/-- zcontainer.cpp:237-265 `operator==`. The element behind the last one written by `set_difference` is
inspected; when the whole vector was written it does not exist. -/
def eq [DecidableEq G1] [DecidableEq G2] [DecidableEq GT] (c1 c2 : Container G1 G2 GT) : Res Bool :=
  let keys1 := SMap.keys c1
  let keys2 := SMap.keys c2
  let n := keys1.length + keys2.length
  let diff := setDiff n keys1 keys2
  let list := diff ++ List.replicate (n - diff.length) []
  match list[diff.length]? with
  | none => .ub
  | some s =>
    if 0 < s.length then .ok false
    else do
      let d ← eqLoop c1 c2 keys1 s.length
      .ok (d == 0)

end Container

/-! ## Scheme identifiers -/

/-- `OpenABE_LIBRARY_VERSION` (include/lsss/zconstants.h:41). -/
def libraryVersion : UInt8 := 170
/-- `UID_LEN` (include/lsss/zconstants.h:49). -/
def uidLen : Nat := 16

/-- utils/utils.cpp:12-31 `OpenABE_getSchemeID`. -/
def getSchemeID (id : UInt8) : Res UInt8 :=
  if id ∈ ([0, 60, 70, 71, 72, 100, 101, 102, 201, 202] : List UInt8) then .ok id
  else .throw .invalidSchemeId

/-! ## Ciphertexts -/

/-- `OpenABECiphertext` (include/abe/zciphertext.h). -/
structure Ciphertext (G1 G2 GT : Type) where
  version : UInt8 := libraryVersion
  alg : UInt8 := 0
  uid : Bytes := BS.fillBuffer 0 uidLen
  comps : Container G1 G2 GT := []

namespace Ciphertext

/-- zciphertext.cpp:69-80, the constructor from a uid. -/
def ofUid (uid : Bytes) : Ciphertext G1 G2 GT :=
  if uidLen ≤ uid.length then { uid := uid } else {}

/-- zciphertext.cpp:189-196 `setHeader`. -/
def setHeader (ct : Ciphertext G1 G2 GT) (alg : UInt8) (uid : Bytes) : Ciphertext G1 G2 GT :=
  { ct with alg := alg, version := libraryVersion, uid := uid }

/-- zciphertext.cpp:201-206 `getHeader`. -/
def header (ct : Ciphertext G1 G2 GT) : Bytes := ct.version :: ct.alg :: ct.uid

/-- zciphertext.cpp:92-111 `exportToBytes`. -/
def exportBytes (cd : Codec G1 G2 GT) (ct : Ciphertext G1 G2 GT) : Res Bytes := do
  let body ← Container.serialize cd ct.comps
  .ok (BS.smartPack (BS.smartPack [] ct.header) body)

/-- zciphertext.cpp:117-152 `loadFromBytes`. -/
def load (mk : Mktime) (cd : Codec G1 G2 GT) (ct : Ciphertext G1 G2 GT) (input : Bytes) :
    Res (Ciphertext G1 G2 GT) :=
  let hdrLen := uidLen + 2
  if input.length < hdrLen then .throw .invalidInput
  else do
    let (hdr, i) ← BS.smartUnpack input 0
    if hdr.length = hdrLen then do
      let v ← BS.atR hdr 0
      if libraryVersion < v then .throw .invalidLibversion
      else do
        let a ← BS.atR hdr 1
        let alg ← getSchemeID a
        let uid := BS.getSubset hdr 2 uidLen
        let (body, _) ← BS.smartUnpack input i
        if body.length = 0 then .throw .invalidCiphertextBody
        else do
          let comps ← Container.deserialize mk cd ct.comps body
          .ok { version := v, alg := alg, uid := uid, comps := comps }
    else .throw .invalidCiphertextHeader

/-- zciphertext.cpp:158-167 `exportToBytesWithoutHeader`. -/
def exportBody (cd : Codec G1 G2 GT) (ct : Ciphertext G1 G2 GT) : Res Bytes := do
  let body ← Container.serialize cd ct.comps
  .ok (BS.smartPack [] body)

/-- zciphertext.cpp:173-182 `loadFromBytesWithoutHeader`. -/
def loadBody (mk : Mktime) (cd : Codec G1 G2 GT) (ct : Ciphertext G1 G2 GT) (input : Bytes) :
    Res (Ciphertext G1 G2 GT) := do
  let (body, _) ← BS.smartUnpack input 0
  if body.length = 0 then .throw .invalidCiphertextBody
  else do
    let comps ← Container.deserialize mk cd ct.comps body
    .ok { ct with comps := comps }

end Ciphertext

/-! ## Keys -/

/-- `OpenABEKey` (include/abe/zkey.h). The key type is a function of the algorithm id (zkey.cpp:85). -/
structure Key (G1 G2 GT : Type) where
  version : UInt8 := libraryVersion
  alg : UInt8 := 0
  uid : Bytes := []
  id : Bytes := []
  comps : Container G1 G2 GT := []

namespace Key

/-- zkey.cpp:69-87, the constructor; `rnd` are the random bytes used when the given uid (if any) does not have the
right length. -/
def new (alg : UInt8) (id : Bytes) (uid : Option Bytes) (rnd : Bytes) : Key G1 G2 GT :=
  { alg := alg, id := id, uid := match uid with
      | some u => if u.length = uidLen then u else rnd
      | none => rnd }

/-- zkey.cpp:101-107 `getHeader`. -/
def header (k : Key G1 G2 GT) : Bytes := k.version :: k.alg :: (k.uid ++ k.id)

/-- zkey.cpp:109-126 `exportKeyToBytes`. -/
def exportBytes (cd : Codec G1 G2 GT) (k : Key G1 G2 GT) : Res Bytes := do
  let body ← Container.serialize cd k.comps
  .ok (BS.pack (BS.pack [] k.header) body)

/-- zkey.cpp:128-132 `loadKeyFromBytes`. -/
def loadBody (mk : Mktime) (cd : Codec G1 G2 GT) (k : Key G1 G2 GT) (input : Bytes) : Res (Key G1 G2 GT) := do
  let comps ← Container.deserialize mk cd k.comps input
  .ok { k with comps := comps }

/-- zkeystore.cpp:290-327 `constructKeyFromBytes`: the key (`none`: null, an `OpenABE_ERROR` was caught) and
the body bytes. A `std::out_of_range` is not caught. `rnd` is the randomness of the `OpenABEKey` constructor. -/
def construct (keyBlob rnd : Bytes) : Res (Option (Key G1 G2 GT × Bytes)) :=
  let hdrLen := uidLen + 2
  if keyBlob.length < hdrLen then .ok none
  else do
    let (hdr, i) ← BS.unpack keyBlob 0
    if hdrLen ≤ hdr.length then do
      let v ← BS.atR hdr 0
      if libraryVersion < v then .ok none
      else do
        let a ← BS.atR hdr 1
        match getSchemeID a with
        | .ok alg =>
          let uid := BS.getSubset hdr 2 uidLen
          let id := if hdrLen < hdr.length then BS.getSubset hdr hdrLen (hdr.length - hdrLen) else []
          let (body, _) ← BS.unpack keyBlob i
          .ok (some (Key.new alg id (some uid) rnd, body))
        | _ => .ok none
    else .ok none

/-- zkeystore.cpp:275-287 `parseKeyHeader`. -/
def parseHeader (keyBlob rnd : Bytes) : Res (Key G1 G2 GT × Bytes) := do
  let r ← construct keyBlob rnd
  match r with
  | none => .throw .invalidInput
  | some p => .ok p

end Key
end Abe
