import Verif.Model.Policy
/-!
# The parser driver (src/lsss/zdriver.cpp)

Functions called by the grammar actions: leaves, gates, numeric and date comparisons, attribute
lists. `kofn_tree` (271-301) and `flexint_leader` (380-403) are not called by any code and are not
modelled. Messages on `std::cerr` are not modelled.
-/
set_option autoImplicit false
namespace Abe

/-- `OpenABEUInteger` (include/lsss/zinteger.h:44-118): value and declared bit width. -/
structure UInteger where
  val : UInt32
  bits : Nat
  deriving DecidableEq, Repr

/-- include/lsss/zinteger.h:66-73 `operator<<`. -/
def UInteger.str (n : UInteger) : Bytes :=
  natDec n.val.toNat ++ (if 0 < n.bits ∧ n.bits < 32 then b!"#" ++ natDec n.bits else [])

/-- include/lsss/zinteger.h:75-78 `operator+=` (unsigned wrap-around). -/
def UInteger.add1 (n : UInteger) : UInteger := { n with val := n.val + 1 }

/-- include/lsss/zinteger.h:80-83 `operator-=` (unsigned wrap-around). -/
def UInteger.sub1 (n : UInteger) : UInteger := { n with val := n.val - 1 }

/-- zdriver.cpp:303-305 `create_expint`; `bits` is cut to 16 bits. -/
def createExpint (v bits : UInt32) : UInteger := ⟨v, bits.toNat % 65536⟩

/-- zdriver.cpp:307-309 `create_flexint`. -/
def createFlexint (v : UInt32) : UInteger := ⟨v, 32⟩

/-- zdriver.cpp:311-353 `checkValidBit`. -/
def checkValidBit (v bits : UInt32) : Bool :=
  if bits < 4 ∨ bits > 32 then false
  else if bits &&& (bits - 1) ≠ 0 then false
  else
    let maxv : UInt32 :=
      if bits = 4 then 0xf
      else if bits = 8 then 0xff
      else if bits = 16 then 0xffff
      else if bits = 32 then 0xffffffff
      else 0
    if v > maxv then false else true

/-- Insertion into a `std::set<std::string>` (sorted list). -/
def sinsert (k : Bytes) : List Bytes → List Bytes
  | [] => [k]
  | a :: s => if blt k a then k :: a :: s else if k = a then a :: s else a :: sinsert k s

/-- `OpenABEAttributeList` (include/lsss/zattributelist.h:50-83). -/
structure AttrList where
  attrs : List Bytes := []
  orig : List Bytes := []
  prefixes : List Bytes := []
  deriving DecidableEq, Repr

/-- `Driver` (include/lsss/zdriver.h:84-200). `attr_count` holds `int`s; counts stay below the number
of leaves, so they are natural numbers here. -/
structure Drv where
  attrCount : SMap Nat := []
  attrDup : List Bytes := []
  attrPrefix : List Bytes := []
  datePrefix : List Bytes := []
  orig : List Bytes := []
  input : Bytes := []
  isPolicy : Bool := true
  policy : Option Policy := none
  attrs : Option AttrList := none

/-- zpolicy.cpp:415-430 `split`: pieces between delimiters, empty pieces dropped. `cur` is the piece
being read. -/
def splitAux (d : UInt8) : Bytes → Bytes → List Bytes
  | cur, [] => if cur = [] then [] else [cur]
  | cur, c :: cs =>
    if c = d then (if cur = [] then splitAux d [] cs else cur :: splitAux d [] cs)
    else splitAux d (cur ++ [c]) cs

/-- zpolicy.cpp:426-430 `split`. -/
def split (d : UInt8) (s : Bytes) : List Bytes := splitAux d [] s

/-- Pieces joined by `:` (zdriver.cpp:810-816). -/
def joinColon : List Bytes → Bytes
  | [] => []
  | [a] => a
  | a :: b :: r => a ++ [58] ++ joinColon (b :: r)

/-- zdriver.cpp:798-828 `check_attribute`: (prefix, attribute). A string made only of colons gives an
empty piece list whose first element is read (805). -/
def checkAttribute (c : Bytes) : Res (Bytes × Bytes) :=
  if (58 : UInt8) ∈ c then
    match split 58 c with
    | [] => .ub
    | p :: rest => .ok (p, joinColon rest)
  else .ok ([], c)

/-- zdriver.cpp:219-242 `leaf_node`. -/
def leafNode (d : Drv) (c : Bytes) : Res (TNode × Drv) := do
  let pa ← checkAttribute c
  let (index, d1) : Nat × Drv :=
    match SMap.find c d.attrCount with
    | none => (0, { d with attrCount := SMap.insert c 1 d.attrCount })
    | some n => (n, { d with attrCount := SMap.insert c (n + 1) d.attrCount,
                             attrDup := sinsert c d.attrDup })
  let d2 := if pa.1 ≠ [] then { d1 with attrPrefix := sinsert pa.1 d1.attrPrefix } else d1
  .ok (.leaf {} pa.1 pa.2 (some index), d2)

/-- zdriver.cpp:244-269 `kof2_tree`. -/
def kof2 (k : Nat) (l r : TNode) : TNode :=
  .gate {} (match k with | 1 => .or | 2 => .and | _ => .threshold) k [l, r]

/-- zdriver.cpp:428-447 `bit_marker`. All callers pass `bit ≤ 31`. `std::setw(2)` pads the width with
a zero. -/
def bitMarker (flex : Bool) (base : Bytes) (bit : Nat) (v : Bool) (bitCount : Nat) : Bytes :=
  let lx := List.replicate (32 - bit - 1) (120 : UInt8)
  let rx := List.replicate bit (120 : UInt8)
  let s := if flex then base ++ b!"_flexint_" ++ lx
    else
      let w := natDec bitCount
      base ++ b!"_expint" ++ (List.replicate (2 - w.length) (48 : UInt8) ++ w) ++ b!"_" ++ lx
  s ++ (if v then b!"1" else b!"0") ++ rx

/-- zdriver.cpp:361-362, the search loop of `bit_marker_list`: the first bit `≥ i` that ends the run.
`none`: the loop would shift by 32. -/
def runEnd (gt : Bool) (v : Nat) : Nat → Nat → Option Nat
  | 0, _ => none
  | fuel + 1, i =>
    if (if gt then v.testBit i else !v.testBit i) then runEnd gt v fuel (i + 1) else some i

/-- zdriver.cpp:365-375, the loop of `bit_marker_list` for `n` more bits starting at `i`. -/
def bitLoop (flex gt : Bool) (attr : Bytes) (bits v : Nat) : Nat → Nat → TNode → Drv → Res (TNode × Drv)
  | 0, _, p, d => .ok (p, d)
  | n + 1, i, p, d => do
    if 32 ≤ i then .ub else
    let r ← leafNode d (bitMarker flex attr i gt bits)
    let k := if gt then (if v.testBit i then 2 else 1) else (if v.testBit i then 1 else 2)
    bitLoop flex gt attr bits v n (i + 1) (kof2 k r.1 p) r.2

/-- zdriver.cpp:355-378 `bit_marker_list`. -/
def bitMarkerList (d : Drv) (flex gt : Bool) (attr : Bytes) (bits : Nat) (v : UInt32) :
    Res (TNode × Drv) := do
  match runEnd gt v.toNat 32 0 with
  | none => .ub
  | some i =>
    let r ← leafNode d (bitMarker flex attr i gt bits)
    bitLoop flex gt attr bits v.toNat (bits - (i + 1)) (i + 1) r.1 r.2

/-- zdriver.cpp:405-426 `cmp_policy`. -/
def cmpPolicy (d : Drv) (n : UInteger) (gt : Bool) (attr : Bytes) : Res (TNode × Drv) :=
  let flex := n.bits = 0
  let width := if n.bits ≠ 0 then n.bits
    else if n.val ≥ 65536 then 32
    else if n.val ≥ 256 then 16
    else if n.val ≥ 16 then 8
    else if n.val ≥ 4 then 4 else 2
  bitMarkerList d flex gt attr width n.val

/-- zdriver.cpp:462-466, the loop of `eq_policy`: `i` more markers, for bits `i-1` down to 0. -/
def eqLoop (flex : Bool) (c : Bytes) (bitCount v : Nat) : Nat → TNode → Drv → Res (TNode × Drv)
  | 0, p, d => .ok (p, d)
  | i + 1, p, d => do
    let r ← leafNode d (bitMarker flex c i (v.testBit i) bitCount)
    eqLoop flex c bitCount v i (kof2 2 p r.1) r.2

/-- zdriver.cpp:449-469 `eq_policy`. -/
def eqPolicy (d : Drv) (c : Bytes) (n : UInteger) : Res (TNode × Drv) := do
  let flex := n.bits = 0
  let bitCount := if n.bits ≠ 0 then n.bits else 32
  let last := if flex then 32 else bitCount
  let r ← leafNode d (bitMarker flex c (last - 1) (n.val.toNat.testBit (last - 1)) bitCount)
  eqLoop flex c bitCount n.val.toNat (last - 1) r.1 r.2

/-- zdriver.cpp:471-473 `lt_policy`. -/
def ltPolicy (d : Drv) (attr : Bytes) (n : UInteger) : Res (TNode × Drv) := cmpPolicy d n false attr

/-- zdriver.cpp:475-477 `gt_policy`. -/
def gtPolicy (d : Drv) (attr : Bytes) (n : UInteger) : Res (TNode × Drv) := cmpPolicy d n true attr

/-- zdriver.cpp:479-482 `le_policy`. -/
def lePolicy (d : Drv) (attr : Bytes) (n : UInteger) : Res (TNode × Drv) :=
  cmpPolicy d n.add1 false attr

/-- zdriver.cpp:484-487 `ge_policy`. -/
def gePolicy (d : Drv) (attr : Bytes) (n : UInteger) : Res (TNode × Drv) :=
  cmpPolicy d n.sub1 true attr

/-- zdriver.cpp:489-505 `range_policy` (the range checks have no effect). -/
def rangePolicy (d : Drv) (c : Bytes) (lo hi : UInteger) : Res (TNode × Drv) := do
  let l ← gtPolicy d c lo
  let r ← ltPolicy l.2 c hi
  .ok (.gate {} .and 2 [l.1, r.1], r.2)

/-- zdriver.cpp:507-524 `range_incl_policy`. -/
def rangeInclPolicy (d : Drv) (c : Bytes) (lo hi : UInteger) : Res (TNode × Drv) := do
  let l ← gePolicy d c lo
  let r ← lePolicy l.2 c hi
  .ok (.gate {} .and 2 [l.1, r.1], r.2)

/-! ### Dates -/

/-- The fields of `struct tm` that the code sets or that `mktime` may have normalised before a second
call (726-744). -/
structure Tm where
  year : Int
  mon : Int
  mday : Int
  hour : Int := 0
  min : Int := 0
  sec : Int := 0
  isdst : Int := 0
  deriving DecidableEq, Repr

/-- `mktime`: the returned time and the normalised structure. A parameter of the model. -/
abbrev Mktime := Tm → Int × Tm

/-- zdriver.cpp:551-580 `get_month`. -/
def getMonth (m : Bytes) : UInteger :=
  ⟨if m = b!"January" ∨ m = b!"Jan" then 1
   else if m = b!"February" ∨ m = b!"Feb" then 2
   else if m = b!"March" ∨ m = b!"Mar" then 3
   else if m = b!"April" ∨ m = b!"Apr" then 4
   else if m = b!"May" then 5
   else if m = b!"June" ∨ m = b!"Jun" then 6
   else if m = b!"July" ∨ m = b!"Jul" then 7
   else if m = b!"August" ∨ m = b!"Aug" then 8
   else if m = b!"September" ∨ m = b!"Sep" then 9
   else if m = b!"October" ∨ m = b!"Oct" then 10
   else if m = b!"November" ∨ m = b!"Nov" then 11
   else if m = b!"December" ∨ m = b!"Dec" then 12
   else 0, 32⟩

/-- zdriver.cpp:614 `(uint32_t)(s / DAY_IN_SECS)`; `DAY_IN_SECS` is a `size_t`, so a negative time
is first taken modulo 2^64. -/
def toDays (s : Int) : UInt32 := UInt32.ofNat ((s % 2 ^ 64).toNat / 86400)

/-- The `tm` built from the three numbers (zdriver.cpp:607-610); unsigned arithmetic, then conversion
to `int`. -/
def mkTm (m d y : UInteger) : Tm :=
  { year := (y.val - 1900).toInt32.toInt, mon := (m.val - 1).toInt32.toInt, mday := d.val.toInt32.toInt }

/-- zdriver.cpp:582-616 `validate_date`: none of the checks has an effect. -/
def validateDate (mk : Mktime) (m d y : UInteger) : UInt32 := toDays (mk (mkTm m d y)).1

/-- zdriver.cpp:650-654 (and 666-670, 682-686, 698-702, 714-718, 745-749): attribute of a date policy. -/
def dateAttr (pre : Bytes) : Bytes := if pre ≠ b!"time" then pre ++ b!":" ++ b!"time" else pre

/-- zdriver.cpp:645-659 `set_date_in_policy`. -/
def eqDate (mk : Mktime) (d : Drv) (pre : Bytes) (m dd y : UInteger) : Res (TNode × Drv) :=
  eqPolicy d (dateAttr pre) ⟨validateDate mk m dd y, 32⟩

/-- zdriver.cpp:661-675 `gt_date_in_policy`. -/
def gtDate (mk : Mktime) (d : Drv) (pre : Bytes) (m dd y : UInteger) : Res (TNode × Drv) :=
  gtPolicy d (dateAttr pre) ⟨validateDate mk m dd y, 32⟩

/-- zdriver.cpp:677-691 `ge_date_in_policy`. -/
def geDate (mk : Mktime) (d : Drv) (pre : Bytes) (m dd y : UInteger) : Res (TNode × Drv) :=
  gePolicy d (dateAttr pre) ⟨validateDate mk m dd y, 32⟩

/-- zdriver.cpp:693-707 `lt_date_in_policy`. -/
def ltDate (mk : Mktime) (d : Drv) (pre : Bytes) (m dd y : UInteger) : Res (TNode × Drv) :=
  ltPolicy d (dateAttr pre) ⟨validateDate mk m dd y, 32⟩

/-- zdriver.cpp:709-723 `le_date_in_policy`. -/
def leDate (mk : Mktime) (d : Drv) (pre : Bytes) (m dd y : UInteger) : Res (TNode × Drv) :=
  lePolicy d (dateAttr pre) ⟨validateDate mk m dd y, 32⟩

/-- zdriver.cpp:725-760 `range_date_in_policy`: the second `mktime` call reuses the structure
normalised by the first one. -/
def rangeDate (mk : Mktime) (d : Drv) (pre : Bytes) (m d1 d2 y : UInteger) : Res (TNode × Drv) := do
  let r1 := mk (mkTm m d1 y)
  let r2 := mk { r1.2 with mday := d2.val.toInt32.toInt }
  let l ← gePolicy d (dateAttr pre) ⟨toDays r1.1, 32⟩
  let r ← lePolicy l.2 (dateAttr pre) ⟨toDays r2.1, 32⟩
  .ok (.gate {} .and 2 [l.1, r.1], r.2)

/-! ### Attribute lists -/

/-- zdriver.cpp:791-793, the loop of `assign_stmt`: markers for bits `i-1` down to 0. -/
def assignLoop (flex : Bool) (c : Bytes) (bitCount v : Nat) : Nat → List Bytes
  | 0 => []
  | i + 1 => bitMarker flex c i (v.testBit i) bitCount :: assignLoop flex c bitCount v i

/-- zdriver.cpp:769-796 `assign_stmt`, the markers appended. -/
def assignStmt (c : Bytes) (n : UInteger) : List Bytes :=
  let flex := n.bits = 0
  let bitCount := if n.bits ≠ 0 then n.bits else 32
  if ¬flex ∧ ¬checkValidBit n.val (UInt32.ofNat n.bits) then []
  else
    let last0 := if flex then 32 else bitCount
    let last := if last0 < 32 then last0 + 2 else last0
    assignLoop flex c bitCount n.val.toNat last

/-- zdriver.cpp:141-154 `attr_num`. Reading `attr_count[c]` creates a zero entry (143). -/
def attrNum (d : Drv) (c : Bytes) (n : UInteger) : List Bytes × Drv :=
  let cnt := (SMap.find c d.attrCount).getD 0
  let d1 := match SMap.find c d.attrCount with
    | some _ => d
    | none => { d with attrCount := SMap.insert c 0 d.attrCount }
  if cnt ≥ 1 then ([], d1)
  else (assignStmt c n, { d1 with orig := d1.orig ++ [c ++ b!"=" ++ n.str] })

/-- zdriver.cpp:156-173 `set_date_in_attrlist`. -/
def setDateAttr (mk : Mktime) (d : Drv) (pre month : Bytes) (m dd y : UInteger) : List Bytes × Drv :=
  let days := validateDate mk m dd y
  if pre ∈ d.datePrefix then ([], d)
  else
    (assignStmt (pre ++ b!":" ++ b!"time") ⟨days, 32⟩,
     { d with orig := d.orig ++ [pre ++ b!"=" ++ month ++ b!" " ++ dd.str ++ b!", " ++ y.str],
              datePrefix := sinsert pre d.datePrefix })

/-- zdriver.cpp:175-191 `parse_attribute`. -/
def parseAttribute (d : Drv) (c : Bytes) : Res (Bool × Drv) := do
  let pa ← checkAttribute c
  match SMap.find c d.attrCount with
  | some _ => .ok (false, d)
  | none =>
    let d1 := { d with attrCount := SMap.insert c 1 d.attrCount }
    .ok (true, if pa.1 ≠ [] then { d1 with attrPrefix := sinsert pa.1 d1.attrPrefix } else d1)

/-- zdriver.cpp:193-204 `leaf_attr`; `none` is the null pointer. -/
def leafAttr (d : Drv) (c : Bytes) : Res (Option (List Bytes) × Drv) := do
  let r ← parseAttribute d c
  .ok (if r.1 then some [c] else none, r.2)

/-- zdriver.cpp:206-217 `concat_attr`. -/
def concatAttr (a b : Option (List Bytes)) : Option (List Bytes) :=
  some (a.getD [] ++ b.getD [])

/-! ### Results -/

/-- zpolicy.cpp:146-160 `setDuplicateInfo`, the map of repeated attributes. -/
def dupInfo (count : SMap Nat) : List Bytes → SMap Nat
  | [] => []
  | k :: ks => SMap.insert k ((SMap.find k count).getD 0) (dupInfo count ks)

/-- zdriver.cpp:97-111 `set_policy` (on a driver without a policy, the only call per parse) with
zpolicy.cpp:146-165. -/
def setPolicy (d : Drv) (t : TNode) : Drv :=
  let p : Policy := { root := some t, hasDup := decide (d.attrDup ≠ []), dupCount := dupInfo d.attrCount d.attrDup, completeSet := SMap.keys d.attrCount, prefixSet := d.attrPrefix, compact := d.input }
  { d with policy := some p }

/-- zdriver.cpp:113-138 `set_attrlist`; a null list is dereferenced (133). -/
def setAttrlist (d : Drv) : Option (List Bytes) → Res Drv
  | none => .ub
  | some l => .ok { d with attrs := some { attrs := l, orig := d.orig, prefixes := d.attrPrefix } }

/-- zdriver.cpp:86-95 `Driver::error`. -/
def Drv.error (d : Drv) : Drv :=
  if d.isPolicy then { d with input := [], policy := none } else { d with input := [], attrs := none }

end Abe
