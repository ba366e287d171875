import Verif.Model.Driver
/-!
# What numeric comparisons mean
-/
set_option autoImplicit false
namespace Abe

/-- An attribute name that does not start with a colon and has no two colons in a row. -/
def NameOk (s : Bytes) : Prop := s.head? ≠ some 58 ∧ ¬ [58, 58] <:+: s

/-- The attribute list `A` holds, among the strings that begin with `base_expint`, exactly those that the
assignment `base = v#w` contributes: `base` has the value `v` with width `w` and no other value. -/
def Gives (A : List Bytes) (base : Bytes) (v : UInt32) (w : Nat) : Prop :=
  ∀ s, base ++ b!"_expint" <+: s → (s ∈ A ↔ s ∈ assignStmt base ⟨v, w⟩)

/-- The numeric conditions of the policy language. -/
inductive NumCond
  | lt (n : UInteger)
  | gt (n : UInteger)
  | le (n : UInteger)
  | ge (n : UInteger)
  | eq (n : UInteger)
  | inOpen (lo hi : UInteger)
  | inClosed (lo hi : UInteger)

namespace NumCond

/-- Truth of the condition for the value `v`. -/
def holds : NumCond → Nat → Prop
  | lt n, v => v < n.val.toNat
  | gt n, v => n.val.toNat < v
  | le n, v => v ≤ n.val.toNat
  | ge n, v => n.val.toNat ≤ v
  | eq n, v => v = n.val.toNat
  | inOpen lo hi, v => lo.val.toNat < v ∧ v < hi.val.toNat
  | inClosed lo hi, v => lo.val.toNat ≤ v ∧ v ≤ hi.val.toNat

/-- The numbers that occur in the condition. -/
def nums : NumCond → List UInteger
  | lt n => [n]
  | gt n => [n]
  | le n => [n]
  | ge n => [n]
  | eq n => [n]
  | inOpen lo hi => [lo, hi]
  | inClosed lo hi => [lo, hi]

/-- The driver function called for the condition (include/lsss/zparser.yy:140-160). -/
def compile (d : Drv) (base : Bytes) : NumCond → Res (TNode × Drv)
  | lt n => ltPolicy d base n
  | gt n => gtPolicy d base n
  | le n => lePolicy d base n
  | ge n => gePolicy d base n
  | eq n => eqPolicy d base n
  | inOpen lo hi => rangePolicy d base lo hi
  | inClosed lo hi => rangeInclPolicy d base lo hi

end NumCond

/-- A number as the scanner and the grammar deliver it: a supported width, a value that fits, and a value
between 1 and 4294967294 (zscanner.cpp:795-806, zparser.yy:112-120). -/
def NumOk (n : UInteger) : Prop :=
  (n.bits = 4 ∨ n.bits = 8 ∨ n.bits = 16 ∨ n.bits = 32) ∧ n.val.toNat < 2 ^ n.bits ∧
    1 ≤ n.val.toNat ∧ n.val.toNat < 2 ^ 32 - 1

end Abe
