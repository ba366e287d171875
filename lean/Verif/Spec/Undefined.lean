import Verif.Spec.Numeric

set_option autoImplicit false

/-! Conditions on numbers that the driver cannot turn into bit conditions. -/

namespace Abe

/-- The comparisons that a condition consists of; equality is not made of comparisons. -/
def NumCond.comparisons : NumCond → List NumCond
  | .eq _ => []
  | .inOpen lo hi => [.gt lo, .lt hi]
  | .inClosed lo hi => [.ge lo, .le hi]
  | c => [c]

/-- All 32-bit numbers meet the condition, or none does. -/
def NumCond.Trivial (c : NumCond) : Prop :=
  (∀ v < 2 ^ 32, c.holds v) ∨ ∀ v < 2 ^ 32, ¬ c.holds v

/-- One of the comparisons is the same for all 32-bit numbers. -/
def NumCond.Undefined (c : NumCond) : Prop := ∃ x ∈ c.comparisons, x.Trivial

end Abe
