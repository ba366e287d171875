import Verif.Proof.CallStack
import Verif.Props.ParserHeap
/-! # C127: the sizes of policies and the depth of recursion over them (zpolicy.cpp) -/
set_option linter.unusedSimpArgs false
set_option linter.unusedSectionVars false
set_option autoImplicit false
namespace Abe
open PH

variable {mk : Mktime}

/-- **C127.** A policy that was parsed from a text of `n` bytes has at most `11 n` leaves, fewer than twice as many nodes,
and at most `n + 30` levels. -/
theorem C127_size (s : Bytes) (p : Policy) (h : createPolicyTree mk s = .ok (some p)) :
    ∃ t, p.root = some t ∧ (leaves t).length ≤ 11 * s.length ∧ t.size + 1 = 2 * (leaves t).length ∧
      t.levels ≤ s.length + 30 := by
  obtain ⟨t, h1, -, h3, h4, h5⟩ := parsed_size h
  exact ⟨t, h1, h4, h5, h3⟩

/-- The bounds are close: three bytes give 32 leaves on 32 levels. -/
example : (match createPolicyTree (fun tm => (0, tm)) b!"a<1" with
    | .ok (some p) => p.root.map (fun t => ((leaves t).length, t.levels))
    | _ => none) = some (32, 32) := by decide +kernel

/-- **C127.** Copying a tree needs exactly one frame for each level, whatever the tree. -/
theorem C127_copy_frames (n : Nat) (t : TNode) :
    (t.levels ≤ n → copyFrames n t = .ok (copyTree t)) ∧ (n < t.levels → copyFrames n t = .ub) := by
  rw [copyFrames_eq]
  exact ⟨fun h => if_pos h, fun h => if_neg (by omega)⟩

/-- **C127.** So does printing a tree of AND and OR gates. -/
theorem C127_print_frames (n : Nat) (t : TNode) (h : AndOr t) :
    (t.levels ≤ n → strFrames n t = .ok t.str) ∧ (n < t.levels → strFrames n t = .ub) := by
  rw [strFrames_eq n t h]
  exact ⟨fun h => if_pos h, fun h => if_neg (by omega)⟩

example : AndOr (kof2 1 (.leaf {} [] b!"a" none) (.leaf {} [] b!"b" none)) ∧
    (kof2 1 (.leaf {} [] b!"a" none) (.leaf {} [] b!"b" none)).levels = 2 := by
  simp [kof2, AndOr, AndOrL, TNode.levels, levelsL]

/-- **C127.** Printing a gate of any other kind with two subnodes takes one frame, however deep they are: they are not
printed. -/
theorem C127_print_other (n : Nat) (f : Flags) (ty : Gate) (thr : Nat) (l r : TNode) (h1 : ty ≠ .and) (h2 : ty ≠ .or) :
    strFrames (n + 1) (.gate f ty thr [l, r]) = .ok b!"()" ∧ strFrames 0 (.gate f ty thr [l, r]) = .ub := by
  cases ty with
  | and => exact absurd rfl h1
  | or => exact absurd rfl h2
  | threshold => exact ⟨by simp only [strFrames], by simp only [strFrames]⟩
  | other => exact ⟨by simp only [strFrames], by simp only [strFrames]⟩

example : Gate.threshold ≠ .and ∧ Gate.threshold ≠ .or := by decide

/-- **C127.** A policy without a tree is copied without a frame; printing it is undefined however much room there is. -/
theorem C127_no_tree (n : Nat) (p : Policy) (h : p.root = none) : p.copyFrames n = .ok p.copy ∧ p.strFrames n = .ub := by
  simp only [Policy.copyFrames, Policy.strFrames, Policy.copy, h]
  obtain ⟨⟩ := p
  simp_all

example : ({ root := none } : Policy).root = none := rfl

/-- **C127 (partial).** A parsed policy can be printed and copied with a call stack that has room for 30 frames more than the
text has bytes. Missing: room that does not depend on the text (see the violation). -/
theorem C127_enough_stack_partial (s : Bytes) (p : Policy) (h : createPolicyTree mk s = .ok (some p)) (n : Nat)
    (hn : s.length + 30 ≤ n) :
    (∃ t, p.root = some t ∧ p.strFrames n = .ok t.str) ∧ p.copyFrames n = .ok p.copy := by
  obtain ⟨t, h1, h2, h3, -⟩ := parsed_size h
  constructor
  · refine ⟨t, h1, ?_⟩
    rw [Policy.strFrames, h1]
    exact (C127_print_frames n t h2).1 (by omega)
  · rw [Policy.copyFrames, h1]
    simp only [(C127_copy_frames n t).1 (by omega), Policy.copy, h1]
    rfl

example : ∃ p, createPolicyTree mk b!"a or b" = .ok (some p) ∧ b!"a or b".length + 30 ≤ 36 :=
  ⟨_, rfl, by decide⟩

/-- **C127 (violated: deep policies exhaust the stack).** For any size of the call stack, a text of five bytes for each frame
parses to a policy that can neither be printed nor copied: nothing limits the depth of a policy, and these two functions
call themselves for each level. -/
theorem C127_deep_policy_violated (n : Nat) :
    (orChain n).length = 5 * n + 2 ∧
      ∃ p, createPolicyTree mk (orChain n) = .ok (some p) ∧ p.strFrames n = .ub ∧ p.copyFrames n = .ub := by
  refine ⟨orc_length n, ?_⟩
  obtain ⟨p, t, h1, h2, h3⟩ := orc_parsed mk n
  obtain ⟨t', h4, h5, -⟩ := parsed_size h1
  rw [h2] at h4
  cases h4
  refine ⟨p, h1, ?_, ?_⟩
  · rw [Policy.strFrames, h2]
    exact (C127_print_frames n t h5).2 (by omega)
  · rw [Policy.copyFrames, h2]
    simp only [(C127_copy_frames n t).2 (by omega)]
    rfl

example : orChain 2 = b!"a or a or a " := rfl

/-- **C127.** Deleting the tree of an accepted policy needs one frame of the destructor only, however deep it is: the
subnodes are not deleted (C119). -/
theorem C127_delete_frames (s : Bytes) (d : Drv) (h : parseString mk true s = .ok (true, d)) :
    ∃ st a h', parseHeap mk true s = .ok (true, st) ∧ st.root = some a ∧ delNode 1 st.heap a = .ok h' := by
  obtain ⟨st, e1, e2, R, L, e3, e4, e5, -⟩ := (parse_sim mk true s).1 true d h
  rcases e3 with ⟨h0, -⟩ | ⟨p, t, a, k1, k2, k3, rfl⟩
  · exact absurd h0 (accepted_policy h)
  · obtain ⟨h', M, d1, -⟩ := holds_delTree e4
    exact ⟨st, a, h', e1, k3, by rw [del_one_frame e4, d1]⟩

example : ∃ d, parseString mk true b!"a or b" = .ok (true, d) := ⟨_, rfl⟩

end Abe
