import Verif.Base
/-!
# Policy trees (include/lsss/zpolicy.h, src/lsss/zpolicy.cpp)
-/
set_option autoImplicit false
namespace Abe

/-- `std::to_string` of a non-negative integer: decimal digits. The first argument bounds the
number of digits. -/
def decAux : Nat → Nat → Bytes
  | 0, _ => []
  | fuel + 1, n =>
    if n < 10 then [UInt8.ofNat (48 + n)]
    else decAux fuel (n / 10) ++ [UInt8.ofNat (48 + n % 10)]

/-- `std::to_string(n)`. -/
def natDec (n : Nat) : Bytes := decAux (n + 1) n

/-- Gate types that can occur on an inner node (`zGateType`, include/lsss/zpolicy.h:51-62);
`other` stands for NONE, XOR, NOT, NAND, NOR and XNOR, which every function treats alike. -/
inductive Gate
  | and
  | or
  | threshold
  | other
  deriving DecidableEq, Repr

/-- The mutable flags of a node (include/lsss/zpolicy.h:75-76, 88). `sat = none`: `m_Satisfied`
is not initialised by any constructor (zpolicy.cpp:176-190). -/
structure Flags where
  mark : Bool := false
  visited : Bool := false
  sat : Option Int := none
  deriving DecidableEq, Repr

/-- `OpenABETreeNode` (include/lsss/zpolicy.h:70-119). `idx = none`: `m_Index` not initialised
(leaf built by the copy constructor). `m_numSubnodes` is never read and is left out. -/
inductive TNode
  | leaf (fl : Flags) (pre lab : Bytes) (idx : Option Nat)
  | gate (fl : Flags) (ty : Gate) (thr : Nat) (subs : List TNode)
  deriving Repr

namespace TNode

/-- Flags of a node. -/
def flags : TNode → Flags
  | leaf fl _ _ _ => fl
  | gate fl _ _ _ => fl

/-- Replace the flags of a node. -/
def withFlags (t : TNode) (fl : Flags) : TNode :=
  match t with
  | leaf _ pre lab idx => leaf fl pre lab idx
  | gate _ ty thr subs => gate fl ty thr subs

/-- include/lsss/zpolicy.h:91 `getMark`. -/
def mark (t : TNode) : Bool := t.flags.mark

/-- include/lsss/zpolicy.h:93-97 `setMark`. -/
def setMark (t : TNode) (m : Bool) (n : Int) : TNode :=
  t.withFlags { t.flags with mark := m, sat := some n }

/-- include/lsss/zpolicy.h:90 `getNumSubnodes`. -/
def numSubnodes : TNode → Nat
  | leaf _ _ _ _ => 0
  | gate _ _ _ subs => subs.length

end TNode

/-- include/lsss/zpolicy.h:106-114 `getCompleteLabel`. -/
def completeLabel (pre lab : Bytes) : Bytes :=
  if pre ≠ [] then pre ++ [58] ++ lab else lab

/-- zpolicy.cpp:199-219 `getThresholdValue`. -/
def thresholdValue (ty : Gate) (thr n : Nat) : Nat :=
  match ty with
  | .and => n
  | .or => 1
  | .threshold => thr
  | .other => 0

mutual
/-- zpolicy.cpp:346-371 `resetFlags` (the explicit stack visits every node once and only writes
that node's own flags, so the order is irrelevant). -/
def resetFlags : TNode → TNode
  | .leaf fl pre lab idx => .leaf { fl with mark := false, visited := false, sat := some 0 } pre lab idx
  | .gate fl ty thr subs =>
    .gate { fl with mark := false, visited := false, sat := some 0 } ty thr (resetFlagsL subs)
/-- children of `resetFlags` -/
def resetFlagsL : List TNode → List TNode
  | [] => []
  | c :: cs => resetFlags c :: resetFlagsL cs
end

mutual
/-- zpolicy.cpp:244-277, the tree copy constructor. On a leaf it returns before copying `m_Index`
and before setting `m_Mark`/`m_Visited`; the parent then clears mark and visited of its children.
For a leaf that is itself the root, mark and visited stay indeterminate; both are written before
they are read, so they are modelled as `false`. A gate's own index is never read. -/
def copyTree : TNode → TNode
  | .leaf _ pre lab _ => .leaf {} pre lab none
  | .gate _ ty thr subs => .gate {} ty thr (copyTreeL subs)
/-- children of `copyTree` -/
def copyTreeL : List TNode → List TNode
  | [] => []
  | c :: cs => copyTree c :: copyTreeL cs
end

/-- `OpenABEPolicy` (include/lsss/zpolicy.h:127-179). -/
structure Policy where
  root : Option TNode := none
  hasDup : Bool := false
  revocation : Bool := false
  dupCount : SMap Nat := []
  completeSet : List Bytes := []
  prefixSet : List Bytes := []
  compact : Bytes := []

/-- zpolicy.cpp:68-84 copy constructor. -/
def Policy.copy (p : Policy) : Policy :=
  { p with root := p.root.map copyTree }

/-- zpolicy.cpp:132-144 `operator=` (different objects): only the tree is copied. A null root on
the right-hand side is dereferenced by the tree copy constructor (zpolicy.cpp:249). -/
def Policy.assign (this rhs : Policy) : Res Policy :=
  match rhs.root with
  | some r => .ok { this with root := some (copyTree r) }
  | none => .ub

/-- zpolicy.cpp:396-413 `OpenABETreeNode_ToString`. -/
def gateString : Gate → Bytes
  | .or => b!" or "
  | .and => b!" and "
  | .threshold => b!" of "
  | .other => []

mutual
/-- zpolicy.cpp:285-341 `OpenABETreeNode::toString`. -/
def TNode.str : TNode → Bytes
  | .leaf _ pre lab _ => completeLabel pre lab
  | .gate _ ty _ subs =>
    let ss := strL subs
    match ss with
    | [a, b] =>
      match ty with
      | .and => b!"(" ++ (a ++ b!" and " ++ b) ++ b!")"
      | .or => b!"(" ++ (a ++ b!" or " ++ b) ++ b!")"
      | _ => b!"()"
    | _ =>
      let head := match ty with
        | .and => natDec subs.length ++ b!" of "
        | .or => natDec 1 ++ b!" of "
        | _ => []
      let body := head ++ b!"(" ++ ss.flatMap (fun s => s ++ b!", ")
      -- zpolicy.cpp:336 `tree.erase(size-2)` removes the last two bytes
      body.take (body.length - 2) ++ b!")"
/-- strings of the children -/
def strL : List TNode → List Bytes
  | [] => []
  | c :: cs => c.str :: strL cs
end

end Abe
