import Verif.Model.Parser
/-!
# Attribute lists (src/lsss/zattributelist.cpp)
-/
set_option autoImplicit false
namespace Abe

/-- zattributelist.cpp:131-162 `addAttribute`. A rejected text with a `=` gives a null list that is
dereferenced (150). -/
def AttrList.add (mk : Mktime) (l : AttrList) (a : Bytes) : Res AttrList := do
  let l1 : AttrList :=
    if (58 : UInt8) ∈ a then
      match split 58 a with
      | p :: _ :: _ => { l with prefixes := sinsert p l.prefixes }
      | _ => l
    else l
  if (61 : UInt8) ∉ a then .ok { l1 with attrs := l1.attrs ++ [a] }
  else
    let r ← createAttributeList mk (124 :: a)
    match r with
    | none => .ub
    | some x => .ok { l1 with attrs := l1.attrs ++ x.attrs, orig := l1.orig ++ x.orig }

/-- zattributelist.cpp:69-82, the constructor: `exit(-1)` on a wrong count, empty strings are skipped. -/
def AttrList.ofArgs (mk : Mktime) (num : Nat) (args : List Bytes) : Res AttrList :=
  if num ≠ args.length then .abort
  else loop {} args
where
  /-- the loop of zattributelist.cpp:76-79 -/
  loop (l : AttrList) : List Bytes → Res AttrList
    | [] => .ok l
    | a :: as =>
      if a = [] then loop l as
      else do
        let l' ← AttrList.add mk l a
        loop l' as

/-- zattributelist.cpp:112-119 `syncOrigAttributes`. -/
def AttrList.syncOrig (l : AttrList) (pre : Bytes) (other : AttrList) : AttrList :=
  { l with orig := l.orig ++ other.orig.filter (hasSub pre) }

/-- zattributelist.cpp:126-129 `matchAttribute`. -/
def AttrList.matchAttr (l : AttrList) (a : Bytes) : Bool := l.attrs.contains a

/-- zattributelist.cpp:183-195 `toString`. -/
def AttrList.str (l : AttrList) : Bytes :=
  124 :: l.attrs.flatMap (fun a => if a ≠ [] then a ++ [124] else [])

/-- zattributelist.cpp:197-214 `toCompactString` (and 216-218 `serialize`). -/
def AttrList.compact (l : AttrList) : Bytes :=
  124 :: (l.attrs.flatMap (fun a => if hasSub b!"_expint" a then [] else a ++ [124]) ++
    l.orig.flatMap (fun a => a ++ [124]))

/-- `std::set_difference` on two ranges (the reference algorithm; the ranges need not be sorted here). -/
def setDiff : Nat → List Bytes → List Bytes → List Bytes
  | 0, _, _ => []
  | _, [], _ => []
  | _, as, [] => as
  | n + 1, a :: as, b :: bs =>
    if blt a b then a :: setDiff n as (b :: bs)
    else if blt b a then setDiff n (a :: as) bs
    else setDiff n as bs

/-- zattributelist.cpp:222-233 `isEqual` with another attribute list: the difference is written into a
vector of empty strings and the element behind the last one written is inspected. -/
def AttrList.isEqual (this z : AttrList) : Res Bool :=
  let n := z.attrs.length + this.attrs.length
  let diff := setDiff n z.attrs this.attrs
  let list := diff ++ List.replicate (n - diff.length) []
  match list[diff.length]? with
  | none => .ub
  | some s => .ok (s.length == 0)

end Abe
