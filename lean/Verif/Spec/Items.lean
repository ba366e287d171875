import Verif.Model.Container
import Verif.Spec.Fields
import Verif.Spec.Grammar
import Verif.Spec.Undefined

set_option autoImplicit false

/-! The bytes of components, containers, ciphertexts and keys, as a grammar. -/

namespace Abe

variable {G1 G2 GT : Type}

/-- The number that four bytes stand for, the most significant one first. -/
def num4 (a b c d : UInt8) : Nat := ((a.toNat * 256 + b.toNat) * 256 + c.toNat) * 256 + d.toNat

/-- The number that any bytes stand for. -/
def numOf (m : Bytes) : Nat := m.foldl (fun n x => n * 256 + x.toNat) 0

/-- The bytes of a value, and the component that is stored for them (`none`: none is stored). Trailing bytes are
allowed everywhere except behind a byte string; a byte string with a wrong length is the empty one; an exponent of
at most three bytes is 0, and one that exceeds the order is reduced; the text of a policy leaves a null pointer. -/
inductive ValueOf (mk : Mktime) (cd : Codec G1 G2 GT) : Bytes → Option (Obj G1 G2 GT) → Prop
  | int (a b c d : UInt8) (t : Bytes) : ValueOf mk cd (0xA1 :: a :: b :: c :: d :: t) (some (.int ⟨UInt32.ofNat (num4 a b c d), 0⟩))
  | zpShort (t : Bytes) : t.length ≤ 2 → ValueOf mk cd (0xB1 :: t) (some (.zp 0))
  | zp (a b : UInt8) (m t : Bytes) : m.length = a.toNat * 256 + b.toNat → m ++ t ≠ [] →
      ValueOf mk cd (0xB1 :: a :: b :: (m ++ t)) (some (.zp (if cd.order < numOf m then numOf m % cd.order else numOf m)))
  | g1 (f x t : Bytes) (e : G1) : Field f x → x.length = 1 ∨ x.length = cd.n1 → cd.r1 x = .ok e →
      ValueOf mk cd (0xB2 :: (f ++ t)) (some (.g1 e))
  | g2 (f x t : Bytes) (e : G2) : Field f x → x.length = 1 ∨ x.length = cd.n2 → cd.r2 x = .ok e →
      ValueOf mk cd (0xB3 :: (f ++ t)) (some (.g2 e))
  | gt (f x t : Bytes) (e : GT) : Field f x → cd.rT x = .ok e → ValueOf mk cd (0xB4 :: (f ++ t)) (some (.gt e))
  | bytes (a b c d : UInt8) (x : Bytes) : num4 a b c d = x.length → x ≠ [] →
      ValueOf mk cd (0x1D :: a :: b :: c :: d :: x) (some (.bytes x))
  | noBytes (t : Bytes) : (∀ a b c d x, t = a :: b :: c :: d :: x → num4 a b c d = x.length → x = []) →
      ValueOf mk cd (0x1D :: t) (some (.bytes []))
  | policy (s : Bytes) (e : Expr) : e.valid = true → e.canon = true → effective (lex (0x7A :: s)) = e.toks →
      (∀ c ∈ e.conds, ¬ (c.cond mk).Undefined) → ValueOf mk cd (0x7A :: s) (some .null)
  | attrs (s : Bytes) (l : AttrList) : createAttributeList mk (0x7C :: s) = .ok (some l) → ValueOf mk cd (0x7C :: s) (some (.attrs l))
  | skipped (y : UInt8) (t : Bytes) : y = 0xC1 ∨ y = 0xC2 → ValueOf mk cd (y :: t) none

/-- The values that lead to undefined behaviour: an exponent whose length exceeds the bytes that are there, what the
group library does not define, and texts of policies with an undefined comparison. -/
inductive UndefinedValue (mk : Mktime) (cd : Codec G1 G2 GT) : Bytes → Prop
  | zp (a b : UInt8) (m : Bytes) : m ≠ [] → m.length < a.toNat * 256 + b.toNat → UndefinedValue mk cd (0xB1 :: a :: b :: m)
  | g1 (f x t : Bytes) : Field f x → x.length = 1 ∨ x.length = cd.n1 → cd.r1 x = .ub → UndefinedValue mk cd (0xB2 :: (f ++ t))
  | g2 (f x t : Bytes) : Field f x → x.length = 1 ∨ x.length = cd.n2 → cd.r2 x = .ub → UndefinedValue mk cd (0xB3 :: (f ++ t))
  | gt (f x t : Bytes) : Field f x → cd.rT x = .ub → UndefinedValue mk cd (0xB4 :: (f ++ t))
  | policy (s : Bytes) : createPolicyTree mk (0x7A :: s) = .ub → UndefinedValue mk cd (0x7A :: s)

/-- The values that end the program: an element of one of the two first groups in a number of bytes that is neither 1
nor the usual one, or with which the group library ends the program. -/
inductive EndValue (cd : Codec G1 G2 GT) : Bytes → Prop
  | size1 (f x t : Bytes) : Field f x → x.length ≠ 1 → x.length ≠ cd.n1 → EndValue cd (0xB2 :: (f ++ t))
  | size2 (f x t : Bytes) : Field f x → x.length ≠ 1 → x.length ≠ cd.n2 → EndValue cd (0xB3 :: (f ++ t))
  | g1 (f x t : Bytes) : Field f x → x.length = 1 ∨ x.length = cd.n1 → cd.r1 x = .abort → EndValue cd (0xB2 :: (f ++ t))
  | g2 (f x t : Bytes) : Field f x → x.length = 1 ∨ x.length = cd.n2 → cd.r2 x = .abort → EndValue cd (0xB3 :: (f ++ t))
  | gt (f x t : Bytes) : Field f x → cd.rT x = .abort → EndValue cd (0xB4 :: (f ++ t))

/-- Names and values, one after the other. -/
def inTurn (kvs : List (Bytes × Bytes)) : List Bytes := kvs.flatMap fun p => [p.1, p.2]

/-- Storing the component of one value. -/
def keep (c : Container G1 G2 GT) (name : Bytes) : Option (Obj G1 G2 GT) → Container G1 G2 GT
  | none => c
  | some o => SMap.insert name o c

/-- The bytes of a container: at least one name with a value, to the last byte. The container `c` becomes `c'`. -/
inductive Listed (mk : Mktime) (cd : Codec G1 G2 GT) : Container G1 G2 GT → List (Bytes × Bytes) → Container G1 G2 GT → Prop
  | nil (c : Container G1 G2 GT) : Listed mk cd c [] c
  | cons {c c' : Container G1 G2 GT} {k v : Bytes} {o : Option (Obj G1 G2 GT)} {kvs : List (Bytes × Bytes)} :
      ValueOf mk cd v o → Listed mk cd (keep c k o) kvs c' → Listed mk cd c ((k, v) :: kvs) c'

/-- The bytes `f` are four bytes with a length, and a content of this length. -/
def Long (f x : Bytes) : Prop := ∃ a b c d, f = a :: b :: c :: d :: x ∧ num4 a b c d = x.length

/-- The numbers of the schemes. -/
def schemeNumbers : List UInt8 := [0, 60, 70, 71, 72, 100, 101, 102, 201, 202]

end Abe
