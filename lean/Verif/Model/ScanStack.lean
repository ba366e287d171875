import Verif.Model.LSSS
/-!
# The explicit stack of `iterativeScanTree` (src/lsss/zlsss.cpp:510-576)

`Verif/Model/LSSS.lean` writes this loop as a recursion (`scan`). Here it is as in the source: a stack
of pointers into one tree that is changed in place. A pointer to a node is its position, the
list of child numbers from the root; the nodes of a policy form a tree, so different positions
are different nodes (include/lsss/zpolicy.h:70-119, sub-nodes are owned by one parent).
`Verif/Proof/ScanStack.lean` proves that both agree.
-/
set_option autoImplicit false
namespace Abe

/-- The node at a position; `none` when there is no such node (`getSubnode`, zpolicy.cpp:229-236,
does not check its index). -/
def TNode.at? : TNode → List Nat → Option TNode
  | t, [] => some t
  | .leaf _ _ _ _, _ :: _ => none
  | .gate _ _ _ subs, i :: p =>
    match subs[i]? with
    | some c => c.at? p
    | none => none

/-- Change the node at a position in place. -/
def TNode.putAt : TNode → List Nat → TNode → TNode
  | _, [], u => u
  | .leaf fl pre lab idx, _ :: _, _ => .leaf fl pre lab idx
  | .gate fl ty thr subs, i :: p, u => .gate fl ty thr (subs.modify i (fun c => c.putAt p u))

/-- zlsss.cpp:549-555: the positions of the children not visited yet, in the order of the loop. -/
def pending (p : List Nat) : List TNode → Nat → List (List Nat)
  | [], _ => []
  | c :: cs, i => if c.flags.visited then pending p cs (i + 1) else (p ++ [i]) :: pending p cs (i + 1)

/-- State of the loop: the tree, the stack (top first), and the local `threshold`, which is
declared outside of the loop without a value (zlsss.cpp:512). -/
structure ScanState where
  tree : TNode
  stack : List (List Nat)
  threshold : Option Nat

/-- zlsss.cpp:523-545: the new value of `threshold`; the leaf case and the default case leave
it as it was. -/
def scanThreshold (old : Option Nat) : TNode → Option Nat
  | .gate _ .and _ subs => some subs.length
  | .gate _ .or _ _ => some 1
  | _ => old

/-- zlsss.cpp:519-573, one iteration with the non-empty stack `p :: stk`. The value of
`threshold` is copied into the call at line 568, which is undefined if it was never set; the callee
uses it for OR gates only, where it is 1 (zlsss.cpp:588, 628). -/
def scanStep (S : StdSort) (A : List Bytes) (t : TNode) (p : List Nat) (stk : List (List Nat))
    (old : Option Nat) : Res ScanState :=
  match t.at? p with
  | none => .ub
  | some (.leaf fl pre lab idx) =>
    let m := A.contains (completeLabel pre lab)
    .ok ⟨t.putAt p (.leaf { fl with mark := m, sat := some (if m then 1 else 0), visited := true }
      pre lab idx), stk, old⟩
  | some (.gate fl ty thr subs) =>
    let threshold := scanThreshold old (.gate fl ty thr subs)
    let todo := pending p subs 0
    if todo = [] then
      match threshold with
      | none => .ub
      | some _ => do
        let u ← determine S fl ty thr subs
        .ok ⟨t.putAt p (setVisited u), stk, threshold⟩
    else .ok ⟨t, todo.reverse ++ p :: stk, threshold⟩

/-- zlsss.cpp:519 `while(!nodes.empty())`, at most `n` iterations; `none` when they do not
suffice. -/
def scanLoop (S : StdSort) (A : List Bytes) : Nat → ScanState → Option (Res ScanState)
  | _, ⟨t, [], thr⟩ => some (.ok ⟨t, [], thr⟩)
  | 0, ⟨_, _ :: _, _⟩ => none
  | n + 1, ⟨t, p :: stk, old⟩ =>
    match scanStep S A t p stk old with
    | .ok s => scanLoop S A n s
    | .throw e => some (.throw e)
    | .ub => some .ub
    | .abort => some .abort

/-- zlsss.cpp:510-576 `iterativeScanTree`: the stack holds the root, `threshold` has no value; the
tree afterwards. -/
def iterativeScan (S : StdSort) (A : List Bytes) (n : Nat) (t : TNode) : Option (Res TNode) :=
  match scanLoop S A n ⟨t, [[]], none⟩ with
  | some r => some (do let s ← r; .ok s.tree)
  | none => none

end Abe
