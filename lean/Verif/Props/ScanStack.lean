import Verif.Proof.ScanStack
import Verif.Props.LSSS
/-! # C93: the explicit stack of the scan (zlsss.cpp:510-576) -/
set_option linter.unusedSimpArgs false
set_option linter.unusedSectionVars false
set_option autoImplicit false
namespace Abe
open LsssEx

/-- The loop over the stack ends after at most twice as many iterations as the tree has nodes,
whatever the marks and visited flags left in the tree, and has then done what the recursive
description says. In particular every position on the stack is a node of the tree and the local
`threshold` has a value when it is used. -/
theorem C93_stack_is_recursion (S : StdSort) (A : List Bytes) (t : TNode) (hao : AndOr t) (n : Nat)
    (hn : 2 * t.size ≤ n) : iterativeScan S A n t = some (scan S A t) := by
  obtain ⟨m, rfl⟩ := Nat.exists_eq_add_of_le (Nat.le_trans (scanCost_le t) hn)
  obtain ⟨old', h⟩ := scanLoop_node S A t t [] (by cases t <;> rfl) hao m [] none
  simp only [iterativeScan, h]
  cases hs : scan S A t with
  | ok u => cases m <;> simp [after, scanLoop, TNode.putAt]
  | throw e => rfl
  | ub => rfl
  | abort => rfl

example : AndOr t1 ∧ 2 * t1.size ≤ 14 := by
  simp [t1, or2, and2, lf, AndOr, AndOrL, TNode.size, sizeL]

/-- The stack loop decides the formula: on a tree without leftover flags it ends, the root carries
the Boolean value of the policy, and only marks have changed. -/
theorem C93_stack_decides_formula (S : StdSort) (A : List Bytes) (t : TNode) (hao : AndOr t)
    (hfresh : Fresh t) : ∃ N, ∀ n, N ≤ n → ∃ t', iterativeScan S A n t = some (.ok t') ∧
      t'.mark = sat A t ∧ SameTree t' t := by
  refine ⟨2 * t.size, fun n hn => ?_⟩
  rw [C93_stack_is_recursion S A t hao n hn]
  obtain ⟨t', h1, h2⟩ := scan_ok S A t hao hfresh
  exact ⟨t', by rw [h1], h2.mark, h2.same⟩

example : AndOr t1 ∧ Fresh t1 := by
  refine ⟨by simp [t1, or2, and2, lf, AndOr, AndOrL], ?_⟩
  simp [t1, or2, and2, lf, Fresh, FreshL, TNode.flags]

/-- A gate that is neither AND nor OR, above leaves only: `threshold` is copied before it was ever
assigned. -/
theorem C93_other_gate_undefined (S : StdSort) (A : List Bytes) (fl fl' : Flags) (thr : Nat)
    (ty : Gate) (h1 : ty ≠ .and) (h2 : ty ≠ .or) (pre lab : Bytes) (idx : Option Nat) (n : Nat) :
    iterativeScan S A (n + 3) (.gate fl ty thr [.leaf { fl' with visited := false } pre lab idx]) =
      some .ub := by
  cases ty <;> simp at h1 h2 <;>
    simp [iterativeScan, scanLoop, scanStep, TNode.at?, TNode.putAt, pending, TNode.flags, scanThreshold]

end Abe
