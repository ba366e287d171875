import Verif.Spec.Policy
import Verif.Model.LSSS
/-! Induction and list forms for the mutually recursive tree functions. -/
set_option linter.unusedSimpArgs false
set_option autoImplicit false
namespace Abe

theorem TNode.ind {P : TNode → Prop}
    (hl : ∀ fl pre lab idx, P (.leaf fl pre lab idx))
    (hg : ∀ fl ty thr subs, (∀ c ∈ subs, P c) → P (.gate fl ty thr subs)) : ∀ t, P t := by
  intro t
  exact TNode.rec (motive_1 := P) (motive_2 := fun l => ∀ c ∈ l, P c)
    hl (fun fl ty thr subs ih => hg fl ty thr subs ih) (by simp)
    (by intro c cs h1 h2 d hd; rcases List.mem_cons.mp hd with rfl | h
        · exact h1
        · exact h2 d h) t

theorem resetFlagsL_eq : ∀ l, resetFlagsL l = l.map resetFlags
  | [] => rfl
  | c :: cs => by simp [resetFlagsL, resetFlagsL_eq cs]

theorem copyTreeL_eq : ∀ l, copyTreeL l = l.map copyTree
  | [] => rfl
  | c :: cs => by simp [copyTreeL, copyTreeL_eq cs]

theorem strL_eq : ∀ l, strL l = l.map TNode.str
  | [] => rfl
  | c :: cs => by simp [strL, strL_eq cs]

theorem satL_eq (A : List Bytes) : ∀ l, satL A l = l.map (sat A)
  | [] => rfl
  | c :: cs => by simp [satL, satL_eq A cs]

theorem leavesL_eq : ∀ l, leavesL l = l.flatMap leaves
  | [] => rfl
  | c :: cs => by simp [leavesL, leavesL_eq cs]

theorem AndOrL_iff : ∀ l, AndOrL l ↔ ∀ c ∈ l, AndOr c
  | [] => by simp [AndOrL]
  | c :: cs => by simp [AndOrL, AndOrL_iff cs]

theorem BinAndL_iff : ∀ l, BinAndL l ↔ ∀ c ∈ l, BinAnd c
  | [] => by simp [BinAndL]
  | c :: cs => by simp [BinAndL, BinAndL_iff cs]

theorem PosGatesL_iff : ∀ l, PosGatesL l ↔ ∀ c ∈ l, PosGates c
  | [] => by simp [PosGatesL]
  | c :: cs => by simp [PosGatesL, PosGatesL_iff cs]

theorem FreshL_iff : ∀ l, FreshL l ↔ ∀ c ∈ l, c.flags.visited = false ∧ Fresh c
  | [] => by simp [FreshL]
  | c :: cs => by simp [FreshL, FreshL_iff cs, and_assoc]

theorem sizeL_eq : ∀ l, sizeL l = (l.map TNode.size).sum
  | [] => rfl
  | c :: cs => by simp [sizeL, sizeL_eq cs]

theorem AndOr.pos : ∀ t, AndOr t → PosGates t := by
  apply TNode.ind
  · intros; trivial
  · intro fl ty thr subs ih h
    obtain ⟨h1, h2, h3⟩ := h
    rw [AndOrL_iff] at h3
    refine ⟨?_, (PosGatesL_iff _).2 fun c hc => ih c hc (h3 c hc)⟩
    rcases h1 with rfl | rfl
    · simpa [thresholdValue] using h2
    · simp [thresholdValue]

/-! ### Trees up to flags -/

theorem resetFlags_flags (t : TNode) : (resetFlags t).flags = ⟨false, false, some 0⟩ := by
  cases t <;> simp [resetFlags, TNode.flags]

theorem resetFlags_withFlags (t : TNode) (fl : Flags) :
    resetFlags (t.withFlags fl) = resetFlags t := by
  cases t <;> simp [resetFlags, TNode.withFlags]

theorem resetFlags_setMark (t : TNode) (m n) : resetFlags (t.setMark m n) = resetFlags t :=
  resetFlags_withFlags _ _

theorem resetFlags_idem : ∀ t, resetFlags (resetFlags t) = resetFlags t := by
  apply TNode.ind
  · intros; simp [resetFlags]
  · intro fl ty thr subs ih
    simp only [resetFlags, resetFlagsL_eq, List.map_map]
    congr 1
    exact List.map_congr_left fun c hc => ih c hc

theorem resetFlags_fresh : ∀ t, Fresh (resetFlags t) := by
  apply TNode.ind
  · intros; trivial
  · intro fl ty thr subs ih
    simp only [resetFlags, resetFlagsL_eq, Fresh]
    rw [FreshL_iff]
    intro c hc
    obtain ⟨d, hd, rfl⟩ := List.mem_map.mp hc
    exact ⟨by rw [resetFlags_flags], ih d hd⟩

/-- A property of trees that does not look at flags. -/
theorem sat_reset (A : List Bytes) : ∀ t, sat A (resetFlags t) = sat A t := by
  apply TNode.ind
  · intros; simp [resetFlags, sat]
  · intro fl ty thr subs ih
    have : (subs.map resetFlags).map (sat A) = subs.map (sat A) := by
      rw [List.map_map]; exact List.map_congr_left fun c hc => ih c hc
    simp only [resetFlags, resetFlagsL_eq, sat, satL_eq, this]

theorem leaves_reset : ∀ t, leaves (resetFlags t) = leaves t := by
  apply TNode.ind
  · intros; simp [resetFlags, leaves]
  · intro fl ty thr subs ih
    simp only [resetFlags, resetFlagsL_eq, leaves, leavesL_eq, List.flatMap_map]
    rw [List.flatMap_def, List.flatMap_def]
    congr 1
    exact List.map_congr_left fun c hc => ih c hc

theorem AndOr_reset : ∀ t, AndOr (resetFlags t) ↔ AndOr t := by
  apply TNode.ind
  · intros; simp [resetFlags, AndOr]
  · intro fl ty thr subs ih
    simp only [resetFlags, resetFlagsL_eq, AndOr, AndOrL_iff, List.mem_map,
      forall_exists_index, and_imp, forall_apply_eq_imp_iff₂, ne_eq, List.map_eq_nil_iff]
    constructor
    · rintro ⟨h1, h2, h3⟩; exact ⟨h1, h2, fun c hc => (ih c hc).1 (h3 c hc)⟩
    · rintro ⟨h1, h2, h3⟩; exact ⟨h1, h2, fun c hc => (ih c hc).2 (h3 c hc)⟩

theorem BinAnd_reset : ∀ t, BinAnd (resetFlags t) ↔ BinAnd t := by
  apply TNode.ind
  · intros; simp [resetFlags, BinAnd]
  · intro fl ty thr subs ih
    simp only [resetFlags, resetFlagsL_eq, BinAnd, BinAndL_iff, List.mem_map, List.length_map,
      forall_exists_index, and_imp, forall_apply_eq_imp_iff₂]
    constructor
    · rintro ⟨h1, h3⟩; exact ⟨h1, fun c hc => (ih c hc).1 (h3 c hc)⟩
    · rintro ⟨h1, h3⟩; exact ⟨h1, fun c hc => (ih c hc).2 (h3 c hc)⟩

theorem PosGates_reset : ∀ t, PosGates (resetFlags t) ↔ PosGates t := by
  apply TNode.ind
  · intros; simp [resetFlags, PosGates]
  · intro fl ty thr subs ih
    simp only [resetFlags, resetFlagsL_eq, PosGates, PosGatesL_iff, List.mem_map, List.length_map,
      forall_exists_index, and_imp, forall_apply_eq_imp_iff₂]
    constructor
    · rintro ⟨h1, h3⟩; exact ⟨h1, fun c hc => (ih c hc).1 (h3 c hc)⟩
    · rintro ⟨h1, h3⟩; exact ⟨h1, fun c hc => (ih c hc).2 (h3 c hc)⟩

theorem size_reset : ∀ t, (resetFlags t).size = t.size := by
  apply TNode.ind
  · intros; simp [resetFlags, TNode.size]
  · intro fl ty thr subs ih
    simp only [resetFlags, resetFlagsL_eq, TNode.size, sizeL_eq, List.map_map]
    congr 2
    exact List.map_congr_left fun c hc => ih c hc

/-- Two trees that differ only in flags. -/
def SameTree (t u : TNode) : Prop := resetFlags t = resetFlags u

theorem SameTree.sat {t u} (h : SameTree t u) (A) : sat A t = sat A u := by
  rw [← sat_reset A t, h, sat_reset]
theorem SameTree.leaves {t u} (h : SameTree t u) : leaves t = leaves u := by
  rw [← leaves_reset t, h, leaves_reset]
theorem SameTree.andOr {t u} (h : SameTree t u) : AndOr t ↔ AndOr u := by
  rw [← AndOr_reset t, h, AndOr_reset]
theorem SameTree.binAnd {t u} (h : SameTree t u) : BinAnd t ↔ BinAnd u := by
  rw [← BinAnd_reset t, h, BinAnd_reset]
theorem SameTree.pos {t u} (h : SameTree t u) : PosGates t ↔ PosGates u := by
  rw [← PosGates_reset t, h, PosGates_reset]
theorem SameTree.size {t u} (h : SameTree t u) : t.size = u.size := by
  rw [← size_reset t, h, size_reset]

end Abe
