import Mathlib.Algebra.Field.ZMod
import Verif.Model.Zr
/-!
# Expressions over `ZP` objects and their values in the field (specification of C154)
-/
set_option autoImplicit false
namespace Abe

/-- An expression in C++ over `ZP` objects: objects, the operators, `power` with an integer and with an object, and
`multInverse` (include/lsss/zelement_bp.h:82-118). -/
inductive ZExpr
  | obj (z : Zr)
  | add (a b : ZExpr)
  | sub (a b : ZExpr)
  | mul (a b : ZExpr)
  | div (a b : ZExpr)
  | neg (a : ZExpr)
  | inv (a : ZExpr)
  | pow (a : ZExpr) (n : Nat)
  | powObj (a : ZExpr) (z : Zr)

namespace ZExpr

/-- The expression has an order: an object by itself, everything computed by a binary operator or a power, and the negation or inverse
of what has one. -/
def ordered : ZExpr → Bool
  | obj z => z.isSet
  | neg a => a.ordered
  | inv a => a.ordered
  | _ => true

/-- The value in the field; inverting does nothing without an order. -/
noncomputable def value (q : Nat) [Fact q.Prime] : ZExpr → ZMod q
  | obj z => (z.val : ZMod q)
  | add a b => a.value q + b.value q
  | sub a b => a.value q - b.value q
  | mul a b => a.value q * b.value q
  | div a b => a.value q / b.value q
  | neg a => - a.value q
  | inv a => if a.ordered then (a.value q)⁻¹ else a.value q
  | pow a n => a.value q ^ n
  | powObj a z => a.value q ^ z.val.toNat

/-- What the expression needs: one of the operands has an order, divisors and what is inverted are not zero in the field, and exponents
are not negative. -/
def Fine (q : Nat) [Fact q.Prime] : ZExpr → Prop
  | obj _ => True
  | add a b => a.Fine q ∧ b.Fine q ∧ (a.ordered = true ∨ b.ordered = true)
  | sub a b => a.Fine q ∧ b.Fine q ∧ (a.ordered = true ∨ b.ordered = true)
  | mul a b => a.Fine q ∧ b.Fine q ∧ (a.ordered = true ∨ b.ordered = true)
  | div a b => a.Fine q ∧ b.Fine q ∧ (a.ordered = true ∨ b.ordered = true) ∧ b.value q ≠ 0
  | neg a => a.Fine q ∧ a.ordered = true
  | inv a => a.Fine q ∧ (a.ordered = true → a.value q ≠ 0)
  | pow a _ => a.Fine q ∧ a.ordered = true
  | powObj a z => a.Fine q ∧ (a.ordered = true ∨ z.isSet = true) ∧ 0 ≤ z.val

/-- The objects have the order `q` or none. -/
def Over (q : Nat) : ZExpr → Prop
  | obj z => z.order = if z.isSet then (q : Int) else 0
  | add a b => a.Over q ∧ b.Over q
  | sub a b => a.Over q ∧ b.Over q
  | mul a b => a.Over q ∧ b.Over q
  | div a b => a.Over q ∧ b.Over q
  | neg a => a.Over q
  | inv a => a.Over q
  | pow a _ => a.Over q
  | powObj a z => a.Over q ∧ z.order = if z.isSet then (q : Int) else 0

/-- Not just an object. -/
def computed : ZExpr → Bool
  | obj _ => false
  | _ => true

/-- Running the expression with the operators of the class (src/lsss/zelement_bp.cpp:172-251), the left operand first. -/
def run : ZExpr → Res Zr
  | obj z => .ok z
  | add a b => do let x ← a.run; let y ← b.run; x.add y
  | sub a b => do let x ← a.run; let y ← b.run; x.sub y
  | mul a b => do let x ← a.run; let y ← b.run; x.mul y
  | div a b => do let x ← a.run; let y ← b.run; x.div y
  | neg a => do let x ← a.run; x.neg
  | inv a => do let x ← a.run; x.multInverse
  | pow a n => do let x ← a.run; x.powU n
  | powObj a z => do let x ← a.run; x.pow z

end ZExpr
end Abe
