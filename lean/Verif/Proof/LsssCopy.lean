import Verif.Proof.LsssApi
/-! Histories of calls and copies of policies. -/
set_option linter.unusedSimpArgs false
set_option linter.unusedSectionVars false
set_option autoImplicit false
namespace Abe
variable {F : Type} [Field F] [DecidableEq F]

theorem scanL_reset (S : StdSort) (A : List Bytes) : ∀ subs : List TNode,
    (∀ c ∈ subs, c.flags.visited = false ∧ scan S A (resetFlags c) = scan S A c) →
    scanL S A (subs.map resetFlags) = scanL S A subs
  | [], _ => rfl
  | c :: cs, h => by
    obtain ⟨h1, h2⟩ := h c (by simp)
    simp only [List.map_cons, scanL, scanL_reset S A cs (fun d hd => h d (by simp [hd])), h1, h2,
      resetFlags_flags, Bool.false_eq_true, if_false]

/-- Resetting the flags of a fresh tree does not change the outcome of a scan. -/
theorem scan_reset (S : StdSort) (A : List Bytes) : ∀ t, AndOr t → Fresh t →
    scan S A (resetFlags t) = scan S A t := by
  apply TNode.ind
  · intros; simp [resetFlags, scan]
  · intro fl ty thr subs ih hao hfr
    have hf := (FreshL_iff _).1 hfr
    have hs := (AndOrL_iff _).1 hao.2.2
    have h := scanL_reset S A subs (fun c hc => ⟨(hf c hc).1, ih c hc (hs c hc) (hf c hc).2⟩)
    simp only [resetFlags, resetFlagsL_eq, scan, h]
    cases hsl : scanL S A subs with
    | ok subs' =>
      simp only [Res.ok_bind]
      rcases hao.1 with rfl | rfl
      · simp only [determine]
        cases andLoop subs' true 0 with
        | ok x =>
          simp only [Res.ok_bind]
          split <;> simp [setVisited, TNode.withFlags, TNode.flags]
        | _ => rfl
      · simp only [determine]
        split
        · split <;> simp [setVisited, TNode.withFlags, TNode.flags]
        · simp [setVisited, TNode.withFlags, TNode.flags]
    | _ => rfl

theorem check_reset (S : StdSort) (A : List Bytes) (t : TNode) (hao : AndOr t) (hfr : Fresh t) :
    checkIfSatisfied S (resetFlags t) A = checkIfSatisfied S t A := by
  simp only [checkIfSatisfied, scan_reset S A t hao hfr]

/-! ### Copies -/

theorem copyTree_fresh : ∀ t, Fresh (copyTree t) := by
  apply TNode.ind
  · intros; trivial
  · intro fl ty thr subs ih
    simp only [copyTree, copyTreeL_eq, Fresh]
    rw [FreshL_iff]
    intro c hc
    obtain ⟨d, hd, rfl⟩ := List.mem_map.mp hc
    refine ⟨?_, ih d hd⟩
    cases d <;> simp [copyTree, TNode.flags]

theorem sat_copy (A : List Bytes) : ∀ t, sat A (copyTree t) = sat A t := by
  apply TNode.ind
  · intros; simp [copyTree, sat]
  · intro fl ty thr subs ih
    have : (subs.map copyTree).map (sat A) = subs.map (sat A) := by
      rw [List.map_map]; exact List.map_congr_left fun c hc => ih c hc
    simp only [copyTree, copyTreeL_eq, sat, satL_eq, this]

theorem AndOr_copy : ∀ t, AndOr (copyTree t) ↔ AndOr t := by
  apply TNode.ind
  · intros; simp [copyTree, AndOr]
  · intro fl ty thr subs ih
    simp only [copyTree, copyTreeL_eq, AndOr, AndOrL_iff, List.mem_map,
      forall_exists_index, and_imp, forall_apply_eq_imp_iff₂, ne_eq, List.map_eq_nil_iff]
    constructor
    · rintro ⟨h1, h2, h3⟩; exact ⟨h1, h2, fun c hc => (ih c hc).1 (h3 c hc)⟩
    · rintro ⟨h1, h2, h3⟩; exact ⟨h1, h2, fun c hc => (ih c hc).2 (h3 c hc)⟩

theorem BinAnd_copy : ∀ t, BinAnd (copyTree t) ↔ BinAnd t := by
  apply TNode.ind
  · intros; simp [copyTree, BinAnd]
  · intro fl ty thr subs ih
    simp only [copyTree, copyTreeL_eq, BinAnd, BinAndL_iff, List.mem_map, List.length_map,
      forall_exists_index, and_imp, forall_apply_eq_imp_iff₂]
    constructor
    · rintro ⟨h1, h3⟩; exact ⟨h1, fun c hc => (ih c hc).1 (h3 c hc)⟩
    · rintro ⟨h1, h3⟩; exact ⟨h1, fun c hc => (ih c hc).2 (h3 c hc)⟩

theorem PosGates_copy : ∀ t, PosGates (copyTree t) ↔ PosGates t := by
  apply TNode.ind
  · intros; simp [copyTree, PosGates]
  · intro fl ty thr subs ih
    simp only [copyTree, copyTreeL_eq, PosGates, PosGatesL_iff, List.mem_map, List.length_map,
      forall_exists_index, and_imp, forall_apply_eq_imp_iff₂]
    constructor
    · rintro ⟨h1, h3⟩; exact ⟨h1, fun c hc => (ih c hc).1 (h3 c hc)⟩
    · rintro ⟨h1, h3⟩; exact ⟨h1, fun c hc => (ih c hc).2 (h3 c hc)⟩

/-- Forget the index of a leaf. -/
def dropIdx (p : Leaf × F) : Leaf × F := ({ p.1 with idx := none }, p.2)

theorem emitL_copy (tape : Nat → F) (q : List F) : ∀ l : List TNode,
    (∀ c ∈ l, draws (copyTree c) = draws c ∧
      ∀ s pos, emit tape (copyTree c) s pos = (emit tape c s pos).map dropIdx) →
    drawsL (l.map copyTree) = drawsL l ∧
    ∀ i pos, emitL tape q (l.map copyTree) i pos = (emitL tape q l i pos).map dropIdx
  | [], _ => ⟨rfl, fun _ _ => rfl⟩
  | c :: cs, h => by
    obtain ⟨h1, h2⟩ := emitL_copy tape q cs (fun d hd => h d (by simp [hd]))
    obtain ⟨h3, h4⟩ := h c (by simp)
    refine ⟨by simp only [List.map_cons, drawsL, h1, h3], fun i pos => ?_⟩
    simp only [List.map_cons, emitL, h1, h2, h4, List.map_append]

theorem emit_copy (tape : Nat → F) : ∀ t : TNode, draws (copyTree t) = draws t ∧
    ∀ s pos, emit tape (copyTree t) s pos = (emit tape t s pos).map dropIdx := by
  apply TNode.ind
  · intros; exact ⟨rfl, fun _ _ => rfl⟩
  · intro fl ty thr subs ih
    refine ⟨?_, fun s pos => ?_⟩
    · simp only [copyTree, copyTreeL_eq, draws, List.length_map,
        (emitL_copy tape [] subs ih).1]
    · simp only [copyTree, copyTreeL_eq, emit, List.length_map]
      exact (emitL_copy tape _ subs ih).2 _ _

theorem toRow_dropIdx (p : Leaf × F) : toRow ([] : SMap Nat) (dropIdx p) = toRow [] p := by
  simp [toRow, dropIdx, uniqueLabel, Leaf.label]

theorem idxOk_nil (t : TNode) : IdxOkT [] t := by
  intro l _ h; simp [SMap.find] at h

end Abe
