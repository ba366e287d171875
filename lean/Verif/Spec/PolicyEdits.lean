import Verif.Spec.Grammar
import Verif.Spec.Policy
/-!
# Adding to a policy

What it should mean to add conjuncts and disjuncts to a policy.
-/
set_option autoImplicit false
namespace Abe

/-- The alternatives of a formula, from left to right: what its outermost `or`s join. -/
def Expr.alts : Expr → List Expr
  | .or l r => l.alts ++ [r]
  | .leaf s => [.leaf s]
  | .cond c => [.cond c]
  | .paren e => [.paren e]
  | .and l r => [.and l r]

/-- The tree built for this part of a formula is satisfied by the attributes `A`. -/
def Expr.Met (mk : Mktime) (A : List Bytes) (e : Expr) : Prop := ∃ t d, e.eval mk {} = .ok (t, d) ∧ sat A t = true

/-- Repeated calls of `addToRootOfInput` (zpolicy.cpp:119-129), each with the policy the one before
returned; a null pointer is passed on. -/
def addEach (mk : Mktime) : List (Gate × Bytes) → Policy → Res (Option Policy)
  | [], p => .ok (some p)
  | g :: gs, p =>
    match addToRootOfInput mk g.1 g.2 p with
    | .ok (some p') => addEach mk gs p'
    | .ok none => .ok none
    | .throw e => .throw e
    | .ub => .ub
    | .abort => .abort

/-- What the additions should do to the truth of a policy: each conjunct narrows and each disjunct widens
all that was there before it. -/
def Edited (A : List Bytes) : List (Gate × Bytes) → Prop → Prop
  | [], x => x
  | (.and, a) :: gs, x => Edited A gs (x ∧ a ∈ A)
  | (_, a) :: gs, x => Edited A gs (x ∨ a ∈ A)

/-- Neither a NUL nor a byte above 127. -/
def CleanText (s : Bytes) : Prop := ∀ b ∈ s, b ≠ 0 ∧ b < 128

end Abe
