import Verif.Model.LSSS
import Verif.Spec.Policy
/-! # Levels of a policy tree -/
set_option autoImplicit false
namespace Abe

mutual
/-- Nodes on the longest way from the root to a leaf. -/
def TNode.levels : TNode → Nat
  | .leaf _ _ _ _ => 1
  | .gate _ _ _ subs => 1 + levelsL subs
/-- The largest number of levels in a forest. -/
def levelsL : List TNode → Nat
  | [] => 0
  | c :: cs => max c.levels (levelsL cs)
end

/-- The text `a or a or … or a ` with `n` operators. -/
def orChain (n : Nat) : Bytes := b!"a " ++ (List.replicate n b!"or a ").flatten

end Abe
