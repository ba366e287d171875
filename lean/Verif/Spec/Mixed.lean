import Verif.Spec.Grammar
/-!
# What a list means that says several things about the same name

A list may give a number several values, or use a name both as a plain attribute and as a number. This file says
what is left of such a list and what a condition on a number then asks for.
-/
set_option autoImplicit false
namespace Abe

/-- Two items of which the driver keeps only the first: a plain attribute and anything else that uses the same
name, or two dates of the same name (zdriver.cpp:141-154, 166-171, 179-184). Two numbers of the same name are both kept. -/
def Item.against : Item → Item → Bool
  | .leaf s, .leaf c => s = c
  | .leaf s, .num c _ => s = c
  | .num s _, .leaf c => s = c
  | .date p _ _ _, .date q _ _ _ => p = q
  | _, _ => false

/-- The items that stay, after `K` have stayed: each item that is not against one that stayed. -/
def remaining : List Item → List Item → List Item
  | _, [] => []
  | K, i :: is => if K.any (·.against i) then remaining K is else i :: remaining (K ++ [i]) is

/-- The values of width `w` that the items give the number `base`. -/
def valuesOf (mk : Mktime) (is : List Item) (base : Bytes) (w : Nat) : List Nat :=
  is.filterMap fun i => match i.value mk with
    | some (b, v, w') => if b = base ∧ w' = w then some v.toNat else none
    | none => none

/-- The bits that are set in all values. For no values, all 32 bits. -/
def allBits (V : List Nat) : Nat := V.foldr (· &&& ·) (2 ^ 32 - 1)

/-- The bits that are set in at least one value. For no values, none. -/
def anyBits (V : List Nat) : Nat := V.foldr (· ||| ·) 0

/-- What a condition asks of the values that its number has, listed by width: upper bounds are compared with the
bits that all values have in common, lower bounds with the bits that any value has, and for an equation each
bit may come from another value. -/
def NumCond.mixed (vals : Nat → List Nat) : NumCond → Prop
  | .lt n => allBits (vals n.bits) < n.val.toNat
  | .gt n => n.val.toNat < anyBits (vals n.bits)
  | .le n => allBits (vals n.bits) ≤ n.val.toNat
  | .ge n => n.val.toNat ≤ anyBits (vals n.bits)
  | .eq n => ∀ i, i < n.bits → ∃ v ∈ vals n.bits, v.testBit i = n.val.toNat.testBit i
  | .inOpen lo hi => lo.val.toNat < anyBits (vals lo.bits) ∧ allBits (vals hi.bits) < hi.val.toNat
  | .inClosed lo hi => lo.val.toNat ≤ anyBits (vals lo.bits) ∧ allBits (vals hi.bits) ≤ hi.val.toNat

/-- Truth of a formula: `has` says which plain attributes there are, `vals` gives the values of the numbers. -/
def Expr.mixed (mk : Mktime) (has : Bytes → Prop) (vals : Bytes → Nat → List Nat) : Expr → Prop
  | .leaf s => has s
  | .cond c => (c.cond mk).mixed (vals c.base)
  | .paren e => e.mixed mk has vals
  | .or l r => l.mixed mk has vals ∨ r.mixed mk has vals
  | .and l r => l.mixed mk has vals ∧ r.mixed mk has vals

/-- The formula is true of what stays of the list. -/
abbrev mixedFor (mk : Mktime) (e : Expr) (a : AExpr) : Prop :=
  e.mixed mk (fun s => Item.leaf s ∈ remaining [] a.items) (valuesOf mk (remaining [] a.items))

end Abe
