import Verif.Proof.Privacy
import Verif.Proof.Labels
/-! The public secret-sharing calls in closed form. -/
set_option linter.unusedSimpArgs false
set_option linter.unusedSectionVars false
set_option autoImplicit false
namespace Abe
variable {F : Type} [Field F] [DecidableEq F]

theorem emitL_reset (tape : Nat → F) (q : List F) : ∀ l : List TNode,
    (∀ c ∈ l, draws (resetFlags c) = draws c ∧
      ∀ s pos, emit tape (resetFlags c) s pos = emit tape c s pos) →
    drawsL (l.map resetFlags) = drawsL l ∧
    ∀ i pos, emitL tape q (l.map resetFlags) i pos = emitL tape q l i pos
  | [], _ => ⟨rfl, fun _ _ => rfl⟩
  | c :: cs, h => by
    obtain ⟨h1, h2⟩ := emitL_reset tape q cs (fun d hd => h d (by simp [hd]))
    obtain ⟨h3, h4⟩ := h c (by simp)
    refine ⟨by simp only [List.map_cons, drawsL, h1, h3], fun i pos => ?_⟩
    simp only [List.map_cons, emitL, h1, h2, h4]

theorem emit_reset (tape : Nat → F) : ∀ t : TNode, draws (resetFlags t) = draws t ∧
    ∀ s pos, emit tape (resetFlags t) s pos = emit tape t s pos := by
  apply TNode.ind
  · intros; exact ⟨rfl, fun _ _ => rfl⟩
  · intro fl ty thr subs ih
    refine ⟨?_, fun s pos => ?_⟩
    · simp only [resetFlags, resetFlagsL_eq, draws, List.length_map,
        (emitL_reset tape [] subs ih).1]
    · simp only [resetFlags, resetFlagsL_eq, emit, List.length_map]
      exact (emitL_reset tape _ subs ih).2 _ _

theorem SameTree.emit {t u : TNode} (h : SameTree t u) (tape : Nat → F) (s : F) (pos : Nat) :
    emit tape t s pos = emit tape u s pos := by
  rw [← (emit_reset tape t).2, h, (emit_reset tape u).2]

/-- The map of repeated attributes an object uses for a policy. -/
def effCount (o : LSSS F) (p : Policy) : SMap Nat := if p.hasDup then p.dupCount else o.attrCount

theorem idxOk_emit {ac : SMap Nat} {t : TNode} (h : IdxOkT ac t) (tape : Nat → F) (s : F) (pos) :
    ∀ p ∈ emit tape t s pos, IdxOk ac p.1 := by
  intro p hp
  apply h
  rw [← (rleaves_perm t).mem_iff, ← emit_fst tape t s pos]
  exact List.mem_map.mpr ⟨p, hp, rfl⟩

theorem idxOk_rec {ac : SMap Nat} {t : TNode} (h : IdxOkT ac t) (v : F) (a : Bool) :
    ∀ p ∈ recRows (recFull t v a), IdxOk ac p.1 := by
  intro p hp
  apply h
  rw [← (rleaves_perm t).mem_iff, ← recFull_fst t v a]
  exact (recRows_keys_sublist _).subset (List.mem_map.mpr ⟨p, hp, rfl⟩)

/-- `shareSecret` in closed form. -/
theorem shareSecret_ok (o : LSSS F) (p : Policy) (t : TNode) (s : F) (tape : Nat → F)
    (hr : p.root = some t) (hp : PosGates t) (hi : IdxOkT (effCount o p) t) :
    shareSecret false o (some p) s tape =
      .ok ({ results := SMap.addRows [] ((emit tape t s 0).map (toRow (effCount o p))),
             attrCount := effCount o p }, draws t) := by
  have h := shareLoop_eq tape t hp 0 [] s 0
    ({ results := [], attrCount := effCount o p } : LSSS F)
  rw [Nat.add_zero] at h
  have e : shareSecret false o (some p) s tape = shareLoop false tape t.size [(t, s)] 0
      { results := [], attrCount := effCount o p } := by
    simp only [shareSecret, hr]; rfl
  rw [e, h, addAll_ok _ _ (idxOk_emit hi tape s 0)]
  simp [shareLoop]

/-- `recoverCoefficients` on a satisfied policy in closed form. -/
theorem recover_sat (S : StdSort) (o : LSSS F) (p : Policy) (t : TNode) (A : List Bytes)
    (hr : p.root = some t) (hao : AndOr t) (hfr : Fresh t) (hso : Solvable F t)
    (hi : IdxOkT (effCount o p) t) (hs : sat A t = true) :
    ∃ t', Scanned A t t' ∧ recoverCoefficients S false o (some p) A =
      .ok (true, { results := SMap.addRows [] ((recRows (recFull t' (1 : F) true)).map
                      (toRow (effCount o p))),
                   attrCount := effCount o p }, { p with root := some t' }) := by
  obtain ⟨t', h1, h2⟩ := scan_ok S A t hao hfr
  refine ⟨t', h2, ?_⟩
  have hm : t'.mark = true := by rw [h2.mark, hs]
  have hao' : AndOr t' := h2.same.andOr.mpr hao
  have hso' : Solvable F t' := by
    rcases hso with h | h
    · exact .inl (h2.same.binAnd.mpr h)
    · exact .inr (fun k hk hle => h k hk (by rw [← h2.same.size]; exact hle))
  have hi' : IdxOkT (effCount o p) t' := by
    unfold IdxOkT; rw [h2.same.leaves]; exact hi
  have hl := recoverLoop_eq A t' hao' hso' h2.good hm (t'.size - msize t') [] (1 : F) false
    ({ results := [], attrCount := effCount o p } : LSSS F)
  rw [Nat.add_sub_cancel' (msize_le t')] at hl
  have e : recoverCoefficients S false o (some p) A =
      (recoverLoop t'.size [(t', (1 : F))] false { results := [], attrCount := effCount o p } >>=
        fun x : Bool × LSSS F => if x.1 then .ok (true, x.2, { p with root := some t' })
          else .ok (false, { x.2 with results := [] }, { p with root := some t' })) := by
    simp only [recoverCoefficients, hr, h1, Res.ok_bind, hm, if_true]
    rfl
  rw [e, hl, addAll_ok _ _ (idxOk_rec hi' 1 true)]
  simp [recoverLoop]

/-- `recoverCoefficients` on an unsatisfied policy in closed form. -/
theorem recover_unsat (S : StdSort) (o : LSSS F) (p : Policy) (t : TNode) (A : List Bytes)
    (hr : p.root = some t) (hao : AndOr t) (hfr : Fresh t) (hs : sat A t = false) :
    ∃ t', Scanned A t t' ∧ recoverCoefficients S false o (some p) A =
      .ok (false, { results := [], attrCount := effCount o p }, { p with root := some t' }) := by
  obtain ⟨t', h1, h2⟩ := scan_ok S A t hao hfr
  refine ⟨t', h2, ?_⟩
  have hm : t'.mark = false := by rw [h2.mark, hs]
  simp only [recoverCoefficients, hr, h1, Res.ok_bind, hm]
  rfl

/-- `checkIfSatisfied` in closed form. -/
theorem check_ok (S : StdSort) (t : TNode) (A : List Bytes) (hao : AndOr t) (hfr : Fresh t) :
    ∃ n : Int, (sat A t = false → n = 0) ∧
      checkIfSatisfied S t A = .ok ((sat A t, n), resetFlags t) := by
  obtain ⟨t', h1, h2⟩ := scan_ok S A t hao hfr
  obtain ⟨n, hn⟩ := Option.isSome_iff_exists.mp h2.hassat
  refine ⟨n, fun h => ?_, ?_⟩
  · have := h2.zero (by rw [h2.mark, h])
    rw [hn] at this; simpa using this
  simp only [checkIfSatisfied, h1, Res.ok_bind, hn, h2.mark, if_true]
  rw [h2.same]

theorem recFullL_rows_held (A : List Bytes) (all : List TNode) (thr : Nat) (c : F) :
    ∀ ds : List TNode,
    (∀ d ∈ ds, d.mark = true → ∀ (v : F), ∀ p ∈ recRows (recFull d v true), p.1.label ∈ A) →
    ∀ i, ∀ p ∈ recRows (recFullL all thr c true ds i), p.1.label ∈ A
  | [], _, _, p, hp => by simp [recFullL, recRows] at hp
  | d :: ds, h, i, p, hp => by
    simp only [recFullL, recRows_append, List.mem_append, Bool.true_and] at hp
    rcases hp with hp | hp
    · exact recFullL_rows_held A all thr c ds (fun e he => h e (by simp [he])) _ p hp
    · by_cases hm : d.mark = true
      · rw [hm] at hp; exact h d (by simp) hm _ p hp
      · have : d.mark = false := by simpa using hm
        rw [this, recRows_inactive] at hp; simp at hp

/-- Only held attributes get a coefficient. -/
theorem recFull_rows_held (A : List Bytes) : ∀ t, Good A t → t.mark = true → ∀ (v : F),
    ∀ p ∈ recRows (recFull t v true), p.1.label ∈ A := by
  apply TNode.ind
  · intro fl pre lab idx hg hm v p hp
    simp [recFull, recRows] at hp
    subst hp
    exact hg hm
  · intro fl ty thr subs ih hg hm v p hp
    simp only [recFull] at hp
    exact recFullL_rows_held A subs _ v subs
      (fun d hd hdm => ih d hd ((GoodL_iff _ _).1 hg.2.2 d hd) hdm) _ p hp

theorem satL_mono {A B : List Bytes} : ∀ l : List TNode,
    (∀ c ∈ l, sat A c = true → sat B c = true) →
    ((l.map (sat A)).count true ≤ (l.map (sat B)).count true) ∧
    ((l.map (sat A)).all id = true → (l.map (sat B)).all id = true) ∧
    ((l.map (sat A)).any id = true → (l.map (sat B)).any id = true)
  | [], _ => by simp
  | c :: cs, h => by
    obtain ⟨h1, h2, h3⟩ := satL_mono cs (fun d hd => h d (by simp [hd]))
    have hc := h c (by simp)
    cases ha : sat A c <;> cases hb : sat B c <;> simp_all
    all_goals omega

/-- Policies are monotone. -/
theorem sat_mono {A B : List Bytes} (hAB : ∀ a ∈ A, a ∈ B) : ∀ t, sat A t = true → sat B t = true := by
  apply TNode.ind
  · intro fl pre lab idx h
    simp only [sat, decide_eq_true_eq] at h ⊢
    exact hAB _ h
  · intro fl ty thr subs ih h
    obtain ⟨h1, h2, h3⟩ := satL_mono subs ih
    cases ty with
    | and => simp only [sat, satL_eq] at h ⊢; exact h2 h
    | or => simp only [sat, satL_eq] at h ⊢; exact h3 h
    | threshold =>
      simp only [sat, satL_eq, decide_eq_true_eq] at h ⊢; omega
    | other => simp [sat] at h

end Abe
