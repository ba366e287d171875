import Verif.Base
/-!
# `OpenABEByteString` (include/lsss/zbytestring.h)

`getInternalPtr()` on an empty vector (zbytestring.h:115-117) is only used with length 0 by
the modelled callers and is treated as harmless.
-/
set_option autoImplicit false
namespace Abe
namespace BS

/-- `std::vector::at` (used at zbytestring.h:261, 347, 361-427): bounds-checked read. -/
def atR (b : Bytes) (i : Nat) : Res UInt8 :=
  match b[i]? with
  | some x => .ok x
  | none => .throw .outOfRange

/-- zbytestring.h:92-98 `operator+(std::string)`. The two arguments after `end()` are
`uint8_t` values, so overload resolution selects `insert(pos, count, value)`:
`count = concat[0]` (0 for the empty string: `c_str()[0]` is the terminator) copies of
`value = concat[size] = '\0'`. -/
def plusString (this : Bytes) (concat : Bytes) : Bytes :=
  this ++ List.replicate (concat.head?.getD 0).toNat 0

/-- zbytestring.h:85-90 `operator+(OpenABEByteString&)`. -/
def plus (this concat : Bytes) : Bytes := this ++ concat

/-- zbytestring.h:106-113 `operator^=`. `i % rhs.size()` with an empty `rhs` is a division by
zero as soon as the loop body runs. -/
def xorAssign (this rhs : Bytes) : Res Bytes :=
  if this.length = 0 then .ok this
  else if h : 0 < rhs.length then
    .ok (this.mapIdx fun i x => x ^^^ rhs[i % rhs.length]'(Nat.mod_lt _ h))
  else .ub

/-- zbytestring.h:131-139 `getSubset`. Sizes are `Nat` (no `size_t` wrap-around). -/
def getSubset (b : Bytes) (start num : Nat) : Bytes :=
  if start + num ≤ b.length then (b.drop start).take num else []

/-- zbytestring.h:141-148 `fillBuffer`: clears, then pushes `len` copies. -/
def fillBuffer (byte : UInt8) (len : Nat) : Bytes := List.replicate len byte

/-- zbytestring.h:229-238 `operator==`. -/
def eq (lhs rhs : Bytes) : Bool :=
  if lhs.length ≠ rhs.length then false
  else (List.zipWith (fun x y => x ^^^ y) lhs rhs).foldl (fun rc d => rc ||| d) 0 == 0

/-- zbytestring.h:279-284 `pack16bits` (the argument is truncated to `uint16_t`). -/
def be16 (n : Nat) : Bytes := [UInt8.ofNat (n / 2 ^ 8), UInt8.ofNat n]

/-- zbytestring.h:286-294 `pack32bits` (the argument is truncated to `uint32_t`). -/
def be32 (n : Nat) : Bytes :=
  [UInt8.ofNat (n / 2 ^ 24), UInt8.ofNat (n / 2 ^ 16), UInt8.ofNat (n / 2 ^ 8), UInt8.ofNat n]

/-- zbytestring.h:296-311 `setFirstBytes`. -/
def setFirstBytes (this : Bytes) (n : Nat) : Bytes :=
  if 4 ≤ this.length then be32 n ++ this.drop 4 else this ++ be32 n

/-- zbytestring.h:248-253 `serialize`; `BYTESTRING` = 0x1D (include/lsss/zconstants.h). -/
def serialize (b : Bytes) : Bytes := 0x1D :: (be32 b.length ++ b)

/-- Big-endian value of a byte list, the `len <<= 8; len += ..` loop (zbytestring.h:259-262);
four bytes never overflow `uint32_t`. -/
def beVal (bs : Bytes) : Nat := bs.foldl (fun a x => a * 256 + x.toNat) 0

/-- zbytestring.h:255-268 `deserialize`: the new value of `*this`. The tag byte is not
checked; nothing happens unless the size matches. -/
def deserialize (this input : Bytes) : Bytes :=
  if 5 < input.length then
    let len := beVal ((input.drop 1).take 4)
    if input.length = len + 5 then getSubset input 5 len else this
  else this

/-- zbytestring.h:313-322 `pack`. -/
def pack (this buf : Bytes) : Bytes := this ++ be32 buf.length ++ buf

/-- zbytestring.h:324-344 `smartPack`. -/
def smartPack (this buf : Bytes) : Bytes :=
  if 65535 < buf.length then this ++ [0xC3] ++ be32 buf.length ++ buf
  else if 255 < buf.length then this ++ [0xB2] ++ be16 buf.length ++ buf
  else if 0 < buf.length then this ++ [0xA1] ++ [UInt8.ofNat buf.length] ++ buf
  else this ++ buf

/-- The copy loop `buf.push_back(this->at(index2)); index2++` shared by
zbytestring.h:364-367, 381-384, 426-429. -/
def copyAt (b : Bytes) : Nat → Nat → Res Bytes
  | _, 0 => .ok []
  | i, n + 1 => do
    let x ← atR b i
    let r ← copyAt b (i + 1) n
    .ok (x :: r)

/-- zbytestring.h:358-370 `unpack8bits`; returns bytes and the new `*index`. -/
def unpack8bits (b : Bytes) (i : Nat) : Res (Bytes × Nat) := do
  let len ← atR b i
  let r ← copyAt b (i + 1) len.toNat
  .ok (r, i + 1 + len.toNat)

/-- zbytestring.h:389-398 `get16bits`. -/
def get16bits (b : Bytes) (i : Nat) : Res (Nat × Nat) := do
  let lo ← atR b (i + 1)
  let hi ← atR b i
  .ok (hi.toNat * 256 + lo.toNat, i + 2)

/-- zbytestring.h:400-412 `get32bits` (the disjoint `|=` of shifted bytes is written as a sum). -/
def get32bits (b : Bytes) (i : Nat) : Res (Nat × Nat) := do
  let b0 ← atR b i
  let b1 ← atR b (i + 1)
  let b2 ← atR b (i + 2)
  let b3 ← atR b (i + 3)
  .ok (((b0.toNat * 256 + b1.toNat) * 256 + b2.toNat) * 256 + b3.toNat, i + 4)

/-- zbytestring.h:372-387 `unpack16bits`. -/
def unpack16bits (b : Bytes) (i : Nat) : Res (Bytes × Nat) := do
  let (len, j) ← get16bits b i
  let r ← copyAt b j len
  .ok (r, j + len)

/-- zbytestring.h:414-432 `unpack`. -/
def unpack (b : Bytes) (i : Nat) : Res (Bytes × Nat) := do
  let (len, j) ← get32bits b i
  let r ← copyAt b j len
  .ok (r, j + len)

/-- zbytestring.h:434-451 `unpack(size_t*, OpenABEByteString&)`: appends to `buf`. -/
def unpackInto (b : Bytes) (i : Nat) (buf : Bytes) : Res (Bytes × Nat) := do
  let (r, j) ← unpack b i
  .ok (buf ++ r, j)

/-- zbytestring.h:346-356 `smartUnpack`: an unknown pack type yields an empty string. -/
def smartUnpack (b : Bytes) (i : Nat) : Res (Bytes × Nat) := do
  let ty ← atR b i
  if ty = 0xC3 then unpack b (i + 1)
  else if ty = 0xB2 then unpack16bits b (i + 1)
  else if ty = 0xA1 then unpack8bits b (i + 1)
  else .ok ([], i + 1)

/-! ## Hexadecimal text -/

/-- One `%X` digit. -/
def hexUp (n : Nat) : UInt8 := if n < 10 then UInt8.ofNat (48 + n) else UInt8.ofNat (55 + n)
/-- One `%x` digit. -/
def hexLo (n : Nat) : UInt8 := if n < 10 then UInt8.ofNat (48 + n) else UInt8.ofNat (87 + n)

/-- zbytestring.h:165-176 `toHex` (`"%02X"`). -/
def toHex (b : Bytes) : Bytes := b.flatMap fun x => [hexUp (x.toNat / 16), hexUp (x.toNat % 16)]

/-- zbytestring.h:178-189 `toLowerHex` (`"%02x"`). -/
def toLowerHex (b : Bytes) : Bytes := b.flatMap fun x => [hexLo (x.toNat / 16), hexLo (x.toNat % 16)]

/-- Value of a hexadecimal digit; `none` for a character outside `HEX_CHARS`
(zbytestring.h:52). -/
def hexVal (c : UInt8) : Option Nat :=
  if 48 ≤ c ∧ c ≤ 57 then some (c.toNat - 48)
  else if 97 ≤ c ∧ c ≤ 102 then some (c.toNat - 87)
  else if 65 ≤ c ∧ c ≤ 70 then some (c.toNat - 55)
  else none

/-- The loop zbytestring.h:201-209 on validated input: two digits per byte. -/
def hexPairs : Bytes → Bytes
  | c :: d :: r => UInt8.ofNat ((hexVal c).getD 0 * 16 + (hexVal d).getD 0) :: hexPairs r
  | _ => []

/-- zbytestring.h:191-212 `fromHex`: result flag and new contents. -/
def fromHex (this s : Bytes) : Bool × Bytes :=
  if s.any (fun c => (hexVal c).isNone) || s.length % 2 != 0 then (false, this)
  else (true, hexPairs s)

end BS

/-! ## Base64 (src/lsss/hashattributes.cpp) -/
namespace B64

/-- hashattributes.cpp:21-24 `base64_chars`. -/
def chars : Bytes := b!"ABCDEFGHIJKLMNOPQRSTUVWXYZabcdefghijklmnopqrstuvwxyz0123456789-_"

/-- `base64_chars[c]` (c < 64 at every use). -/
def chr (c : UInt8) : UInt8 := chars[c.toNat]?.getD 0

/-- hashattributes.cpp:28-30 `is_base64` (`isalnum` in the C locale). -/
def isB64 (c : UInt8) : Bool :=
  (48 ≤ c && c ≤ 57) || (65 ≤ c && c ≤ 90) || (97 ≤ c && c ≤ 122) || c == 45 || c == 95

/-- hashattributes.cpp:42-45 and 58-61: three bytes to four sextets. -/
def sextets (a b c : UInt8) : UInt8 × UInt8 × UInt8 × UInt8 :=
  ((a &&& 0xfc) >>> 2, ((a &&& 0x03) <<< 4) + ((b &&& 0xf0) >>> 4),
   ((b &&& 0x0f) <<< 2) + ((c &&& 0xc0) >>> 6), c &&& 0x3f)

/-- hashattributes.cpp:32-73 `Base64Encode`. The three-byte buffer of the loop is read three
bytes at a time; the last two equations are the `if (i)` tail. -/
def encode : Bytes → Bytes
  | a :: b :: c :: r =>
    let (p, q, s, t) := sextets a b c
    chr p :: chr q :: chr s :: chr t :: encode r
  | [a, b] =>
    let (p, q, s, _) := sextets a b 0
    [chr p, chr q, chr s, 61]
  | [a] =>
    let (p, q, _, _) := sextets a 0 0
    [chr p, chr q, 61, 61]
  | [] => []

/-- `base64_chars.find(c)` stored in an `unsigned char` (`npos` becomes 255). -/
def idx (c : UInt8) : UInt8 :=
  match chars.idxOf? c with
  | some i => UInt8.ofNat i
  | none => 255

/-- hashattributes.cpp:89-91 and 127-129: four sextets to three bytes. -/
def octets (p q s t : UInt8) : UInt8 × UInt8 × UInt8 :=
  ((p <<< 2) + ((q &&& 0x30) >>> 4), ((q &&& 0xf) <<< 4) + ((s &&& 0x3c) >>> 2),
   ((s &&& 0x3) <<< 6) + t)

/-- hashattributes.cpp:83-97, the decoding loop: `buf` is `char_array_4[0..i)`.
Returns the leftover buffer, the unread input and the decoded bytes. -/
def decLoop : Bytes → Bytes → Bytes → Bytes × Bytes × Bytes
  | [], buf, ret => (buf, [], ret)
  | c :: r, buf, ret =>
    if c != 61 && isB64 c then
      match buf with
      | [p, q, s] =>
        let (x, y, z) := octets (idx p) (idx q) (idx s) (idx c)
        decLoop r [] (ret ++ [x, y, z])
      | _ => decLoop r (buf ++ [c]) ret
    else (buf, c :: r, ret)

/-- hashattributes.cpp:75-135 `Base64Decode`. -/
def decode (s : Bytes) : Bytes :=
  let (buf, rest, ret) := decLoop s [] []
  if rest.length > 2 then []
  else if rest.any (· != 61) then []
  else
    match buf with
    | [p, q, u] =>
      let (x, y, _) := octets (idx p) (idx q) (idx u) (idx 0)
      ret ++ [x, y]
    | [p, q] =>
      let (x, _, _) := octets (idx p) (idx q) (idx 0) (idx 0)
      ret ++ [x]
    | _ => ret

end B64
end Abe
