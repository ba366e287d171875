import Verif.Spec.Policy
/-!
# How many leaves of a policy have to be used

Independent of marking and recovery: the ways in which a holder of attributes can satisfy a tree, and how
many leaves each of them uses.
-/
set_option autoImplicit false
namespace Abe

/-- `Ways H t n`: the tree can be satisfied by using `n` of its leaves, all with attributes that `H` holds.
A leaf uses itself, an AND gate a way for each of its subnodes, an OR gate a way for one of them. -/
inductive Ways (H : Bytes → Prop) : TNode → Nat → Prop
  | leaf {fl pre lab idx} : H (completeLabel pre lab) → Ways H (.leaf fl pre lab idx) 1
  | none {fl thr} : Ways H (.gate fl .and thr []) 0
  | all {fl thr c cs n m} : Ways H c n → Ways H (.gate fl .and thr cs) m → Ways H (.gate fl .and thr (c :: cs)) (n + m)
  | one {fl thr subs c n} : c ∈ subs → Ways H c n → Ways H (.gate fl .or thr subs) n

/-- The number by which src/lsss/zlsss.cpp:612-615 orders the subnodes of an OR gate: the number of direct
subnodes, and 1 for a leaf. -/
def TNode.direct (t : TNode) : Nat := if t.numSubnodes = 0 then 1 else t.numSubnodes

/-- Ordering `c` before `d` by direct subnodes is right: if `c` has as few of them as `d`, no way for `c` uses
more leaves than a way for `d`. -/
def RightOrder (c d : TNode) : Prop :=
  c.direct ≤ d.direct → ∀ n m, Ways (fun _ => True) c n → Ways (fun _ => True) d m → n ≤ m

mutual
/-- Below every OR gate the direct subnodes tell which of two different subnodes needs fewer leaves. -/
def Clear : TNode → Prop
  | .leaf _ _ _ _ => True
  | .gate _ ty _ subs => (ty = .or → subs.Pairwise fun c d => RightOrder c d ∧ RightOrder d c) ∧ ClearL subs
/-- `Clear` for all children -/
def ClearL : List TNode → Prop
  | [] => True
  | c :: cs => Clear c ∧ ClearL cs
end

/-- A leaf. -/
def TNode.isLeaf : TNode → Bool
  | .leaf _ _ _ _ => true
  | .gate _ _ _ _ => false

/-- A leaf, or an AND gate over leaves. -/
def TNode.Clause : TNode → Prop
  | .leaf _ _ _ _ => True
  | .gate _ ty _ subs => ty = .and ∧ subs ≠ [] ∧ ∀ c ∈ subs, c.isLeaf = true

mutual
/-- Every subnode of an OR gate is a leaf or an AND gate over leaves. -/
def Flat : TNode → Prop
  | .leaf _ _ _ _ => True
  | .gate _ ty _ subs => (ty = .or → ∀ c ∈ subs, c.Clause) ∧ FlatL subs
/-- `Flat` for all children -/
def FlatL : List TNode → Prop
  | [] => True
  | c :: cs => Flat c ∧ FlatL cs
end

end Abe
