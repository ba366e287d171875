import Verif.Model.Policy
/-!
# What a policy means

Independent of marking, sharing and recovery: the Boolean formula denoted by a tree.
-/
set_option autoImplicit false
namespace Abe

mutual
/-- Boolean value of the policy for the attribute set `A`. -/
def sat (A : List Bytes) : TNode → Bool
  | .leaf _ pre lab _ => decide (completeLabel pre lab ∈ A)
  | .gate _ ty thr subs =>
    match ty with
    | .and => (satL A subs).all id
    | .or => (satL A subs).any id
    | .threshold => decide (thr ≤ (satL A subs).count true)
    | .other => false
/-- values of the children -/
def satL (A : List Bytes) : List TNode → List Bool
  | [] => []
  | c :: cs => sat A c :: satL A cs
end

/-- A list of attributes satisfies a policy. -/
def Scheme.Satisfies (A : List Bytes) (p : Policy) : Prop := ∃ t, p.root = some t ∧ sat A t = true

/-- A leaf: prefix, label and index. -/
structure Leaf where
  pre : Bytes
  lab : Bytes
  idx : Option Nat
  deriving DecidableEq, Repr

/-- The attribute string of a leaf. -/
def Leaf.label (l : Leaf) : Bytes := completeLabel l.pre l.lab

mutual
/-- The leaves, left to right. -/
def leaves : TNode → List Leaf
  | .leaf _ pre lab idx => [⟨pre, lab, idx⟩]
  | .gate _ _ _ subs => leavesL subs
/-- leaves of a forest -/
def leavesL : List TNode → List Leaf
  | [] => []
  | c :: cs => leaves c ++ leavesL cs
end

mutual
/-- Every gate is AND or OR and has at least one child. -/
def AndOr : TNode → Prop
  | .leaf _ _ _ _ => True
  | .gate _ ty _ subs => (ty = .and ∨ ty = .or) ∧ subs ≠ [] ∧ AndOrL subs
/-- `AndOr` for all children -/
def AndOrL : List TNode → Prop
  | [] => True
  | c :: cs => AndOr c ∧ AndOrL cs
end

mutual
/-- No AND gate has more than two children (what `a and b` parses to). -/
def BinAnd : TNode → Prop
  | .leaf _ _ _ _ => True
  | .gate _ ty _ subs => (ty = .and → subs.length ≤ 2) ∧ BinAndL subs
/-- `BinAnd` for all children -/
def BinAndL : List TNode → Prop
  | [] => True
  | c :: cs => BinAnd c ∧ BinAndL cs
end

mutual
/-- Every gate has a non-zero threshold: AND with a child, OR, or k-of-n with k > 0. -/
def PosGates : TNode → Prop
  | .leaf _ _ _ _ => True
  | .gate _ ty thr subs => thresholdValue ty thr subs.length ≠ 0 ∧ PosGatesL subs
/-- `PosGates` for all children -/
def PosGatesL : List TNode → Prop
  | [] => True
  | c :: cs => PosGates c ∧ PosGatesL cs
end

mutual
/-- No node below the root has been visited by a scan. -/
def Fresh : TNode → Prop
  | .leaf _ _ _ _ => True
  | .gate _ _ _ subs => FreshL subs
/-- children are unvisited and fresh -/
def FreshL : List TNode → Prop
  | [] => True
  | c :: cs => c.flags.visited = false ∧ Fresh c ∧ FreshL cs
end

/-- The key a leaf's row is stored under. -/
def uniqueLabel (ac : SMap Nat) (l : Leaf) : Bytes :=
  if (SMap.find l.label ac).isSome then l.label ++ b!"%" ++ natDec (l.idx.getD 0) else l.label

/-- The index of a leaf is available when it is needed. -/
def IdxOk (ac : SMap Nat) (l : Leaf) : Prop := (SMap.find l.label ac).isSome → l.idx.isSome

/-- All leaves of the tree have an index when they need one. -/
def IdxOkT (ac : SMap Nat) (t : TNode) : Prop := ∀ l ∈ leaves t, IdxOk ac l

/-- Leaves that carry the same attribute are counted as duplicates and have different indices. -/
def Numbered (ac : SMap Nat) (ls : List Leaf) : Prop :=
  ls.Pairwise fun a b => a.label = b.label →
    (SMap.find a.label ac).isSome ∧ a.idx.getD 0 ≠ b.idx.getD 0

end Abe
