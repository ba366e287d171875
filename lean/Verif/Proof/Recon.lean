import Verif.Proof.Share
import Verif.Proof.Maps
import Mathlib.Data.List.Nodup
/-! Recovery inverts sharing. -/
set_option linter.unusedSimpArgs false
set_option linter.unusedSectionVars false
set_option autoImplicit false
namespace Abe
variable {F : Type} [Field F] [DecidableEq F]

/-- Sum of coefficient times share over all leaves. -/
def zsum (a : List (Leaf × Option F)) (b : List (Leaf × F)) : F :=
  (List.zipWith (fun x y => x.2.getD 0 * y.2) a b).sum

mutual
/-- Leaves in loop order. -/
def rleaves : TNode → List Leaf
  | .leaf _ pre lab idx => [⟨pre, lab, idx⟩]
  | .gate _ _ _ subs => rleavesL subs
/-- leaves of a forest, last child first -/
def rleavesL : List TNode → List Leaf
  | [] => []
  | c :: cs => rleavesL cs ++ rleaves c
end

theorem rleavesL_perm : ∀ l : List TNode, (∀ c ∈ l, (rleaves c).Perm (leaves c)) →
    (rleavesL l).Perm (leavesL l)
  | [], _ => .refl _
  | c :: cs, h =>
    (List.perm_append_comm).trans
      ((h c (by simp)).append (rleavesL_perm cs fun d hd => h d (by simp [hd])))

theorem rleaves_perm : ∀ t, (rleaves t).Perm (leaves t) := by
  apply TNode.ind
  · intros; exact .refl _
  · intro fl ty thr subs ih; exact rleavesL_perm subs ih

theorem emitL_fst (tape : Nat → F) (coeffs : List F) : ∀ l : List TNode,
    (∀ c ∈ l, ∀ s pos, (emit tape c s pos).map Prod.fst = rleaves c) →
    ∀ i pos, (emitL tape coeffs l i pos).map Prod.fst = rleavesL l
  | [], _, _, _ => rfl
  | c :: cs, h, i, pos => by
    simp only [emitL, List.map_append, rleavesL]
    rw [emitL_fst tape coeffs cs (fun d hd => h d (by simp [hd])), h c (by simp)]

theorem emit_fst (tape : Nat → F) : ∀ (t : TNode) s pos,
    (emit tape t s pos).map Prod.fst = rleaves t := by
  apply TNode.ind
  · intros; rfl
  · intro fl ty thr subs ih s pos
    exact emitL_fst tape _ subs ih _ _

theorem recFullL_fst (all : List TNode) (thr : Nat) (c : F) (act : Bool) : ∀ l : List TNode,
    (∀ d ∈ l, ∀ (v : F) a, (recFull d v a).map Prod.fst = rleaves d) →
    ∀ i, (recFullL all thr c act l i).map Prod.fst = rleavesL l
  | [], _, _ => rfl
  | d :: ds, h, i => by
    simp only [recFullL, List.map_append, rleavesL]
    rw [recFullL_fst all thr c act ds (fun d hd => h d (by simp [hd])), h d (by simp)]

theorem recFull_fst : ∀ (t : TNode) (c : F) a, (recFull t c a).map Prod.fst = rleaves t := by
  apply TNode.ind
  · intros; rfl
  · intro fl ty thr subs ih c a
    exact recFullL_fst _ _ c a subs ih _

theorem emit_length (tape : Nat → F) (t : TNode) (s : F) (pos : Nat) (c : F) (a : Bool) :
    (recFull t c a).length = (emit tape t s pos).length := by
  have h1 := congrArg List.length (emit_fst tape t s pos)
  have h2 := congrArg List.length (recFull_fst t c a)
  simp only [List.length_map] at h1 h2
  rw [h1, h2]

theorem emitL_length (tape : Nat → F) (coeffs : List F) (all l : List TNode) (i pos thr : Nat)
    (c : F) (a : Bool) :
    (recFullL all thr c a l i).length = (emitL tape coeffs l i pos).length := by
  have h1 := congrArg List.length
    (emitL_fst tape coeffs l (fun c _ s pos => emit_fst tape c s pos) i pos)
  have h2 := congrArg List.length
    (recFullL_fst all thr c a l (fun d _ v a => recFull_fst d v a) i)
  simp only [List.length_map] at h1 h2
  rw [h1, h2]

theorem zsum_append (a a' : List (Leaf × Option F)) (b b' : List (Leaf × F))
    (h : a.length = b.length) : zsum (a ++ a') (b ++ b') = zsum a b + zsum a' b' := by
  unfold zsum
  rw [List.zipWith_append h, List.sum_append]

theorem zsum_none : ∀ (a : List (Leaf × Option F)) (b : List (Leaf × F)),
    (∀ p ∈ a, p.2 = none) → zsum a b = 0
  | [], b, _ => by simp [zsum]
  | x :: a, [], _ => by simp [zsum]
  | x :: a, y :: b, h => by
    have h1 := zsum_none a b (fun p hp => h p (by simp [hp]))
    have h2 := h x (by simp)
    unfold zsum at h1 ⊢
    simp [h2, h1]

/-- Contribution of the children. -/
def gsum (all : List TNode) (thr : Nat) (c : F) (coeffs : List F) : List TNode → Nat → F
  | [], _ => 0
  | d :: ds, i =>
    gsum all thr c coeffs ds (i + 1) +
      if d.mark then c * (calculateCoefficient all i thr : Res F).val * evaluatePolynomial coeffs (i + 1)
      else 0

theorem zsumL (tape : Nat → F) (coeffs : List F) (all : List TNode) (thr : Nat) (c : F) :
    ∀ ds : List TNode,
    (∀ d ∈ ds, d.mark = true → ∀ (v s : F) pos, zsum (recFull d v true) (emit tape d s pos) = v * s) →
    ∀ i pos, zsum (recFullL all thr c true ds i) (emitL tape coeffs ds i pos)
      = gsum all thr c coeffs ds i
  | [], _, _, _ => by simp [recFullL, emitL, gsum, zsum]
  | d :: ds, h, i, pos => by
    simp only [recFullL, emitL, gsum, Bool.true_and]
    rw [zsum_append _ _ _ _ (emitL_length ..),
      zsumL tape coeffs all thr c ds (fun e he => h e (by simp [he]))]
    congr 1
    by_cases hm : d.mark = true
    · rw [hm, h d (by simp) hm]; simp
    · have : d.mark = false := by simpa using hm
      rw [this, zsum_none _ _ (recFull_inactive _ _)]; simp

theorem gsum_unmarked (all : List TNode) (thr : Nat) (c : F) (coeffs : List F) :
    ∀ (ds : List TNode) i, (∀ d ∈ ds, d.mark = false) → gsum all thr c coeffs ds i = 0
  | [], _, _ => rfl
  | d :: ds, i, h => by
    simp [gsum, h d (by simp), gsum_unmarked all thr c coeffs ds (i + 1) (fun e he => h e (by simp [he]))]

theorem gsum_append (all : List TNode) (thr : Nat) (c : F) (coeffs : List F) :
    ∀ (a b : List TNode) i, gsum all thr c coeffs (a ++ b) i
      = gsum all thr c coeffs a i + gsum all thr c coeffs b (i + a.length)
  | [], b, i => by simp [gsum]
  | d :: a, b, i => by
    simp only [List.cons_append, gsum, gsum_append all thr c coeffs a b (i + 1), List.length_cons]
    rw [show i + 1 + a.length = i + (a.length + 1) by omega]
    ring

/-- Coefficients times shares add up to coefficient times secret. -/
theorem zsum_eq (tape : Nat → F) (A : List Bytes) : ∀ t, AndOr t → BinAnd t → Good A t →
    t.mark = true → ∀ (v s : F) pos, zsum (recFull t v true) (emit tape t s pos) = v * s := by
  apply TNode.ind
  · intro fl pre lab idx _ _ _ _ v s pos
    simp [recFull, emit, zsum]
  · intro fl ty thr subs ih hao hb hg hm v s pos
    have hm' : fl.mark = true := hm
    simp only [recFull, emit]
    rw [zsumL tape _ subs _ v subs (fun d hd hdm => ih d hd ((AndOrL_iff _).1 hao.2.2 d hd)
      ((BinAndL_iff _).1 hb.2 d hd) ((GoodL_iff _ _).1 hg.2.2 d hd) hdm)]
    rcases hao.1 with rfl | rfl
    · have hall := hg.1 hm' rfl
      have hlen := hb.1 rfl
      match subs, hao.2.1, hlen, hall with
      | [c0], _, _, hall =>
        simp only [gsum, recoverThreshold, thresholdValue, List.length_cons, List.length_nil,
          Nat.zero_add, calc_and_one, Res.val, hall c0 (by simp), if_true]
        simp [drawCoeffs, List.range_succ, evaluatePolynomial, evalLoop]
      | [c0, c1], _, _, hall =>
        obtain ⟨h1, h2⟩ := calc_and_two (F := F) c0 c1 (hall c0 (by simp)) (hall c1 (by simp))
        simp only [gsum, recoverThreshold, thresholdValue, List.length_cons, List.length_nil,
          Nat.zero_add, h1, h2, Res.val, hall c0 (by simp), hall c1 (by simp), if_true]
        have r2 : List.range 2 = [0, 1] := rfl
        simp only [drawCoeffs, r2, evaluatePolynomial, evalLoop, List.map_cons, List.map_nil,
          List.set_cons_zero]
        norm_num
        ring
      | _ :: _ :: _ :: _, _, hlen, _ => simp at hlen
    · obtain ⟨l, c, r, rfl, hc, hl, hr⟩ := hg.2.1 hm' rfl
      rw [gsum_append, gsum_unmarked _ _ _ _ l 0 hl]
      simp only [gsum, gsum_unmarked _ _ _ _ r _ hr, hc, if_true, zero_add, recoverThreshold,
        calc_or l r c hl, Res.val, thresholdValue]
      simp [drawCoeffs, List.range_succ, evaluatePolynomial, evalLoop]

/-! ### Rows -/

/-- The row a leaf produces. -/
def toRow (ac : SMap Nat) (p : Leaf × F) : Bytes × (Bytes × F) :=
  (uniqueLabel ac p.1, (p.1.label, p.2))

theorem makeUniqueLabel_ok (ac : SMap Nat) (l : Leaf) (h : IdxOk ac l) :
    makeUniqueLabel ac l.pre l.lab l.idx = .ok (uniqueLabel ac l) := by
  unfold makeUniqueLabel uniqueLabel Leaf.label at *
  unfold IdxOk Leaf.label at h
  by_cases hs : (SMap.find (completeLabel l.pre l.lab) ac).isSome = true
  · obtain ⟨i, hi⟩ := Option.isSome_iff_exists.mp (h hs)
    simp [hs, hi]
  · simp [hs]

theorem addAll_ok (l : List (Leaf × F)) : ∀ (o : LSSS F), (∀ p ∈ l, IdxOk o.attrCount p.1) →
    addAll o l = .ok { o with results := o.results.addRows (l.map (toRow o.attrCount)) } := by
  induction l with
  | nil => intro o _; rfl
  | cons p l ih =>
    intro o h
    obtain ⟨lf, v⟩ := p
    simp only [addAll, addShare, makeUniqueLabel_ok _ lf (h (lf, v) (by simp)), Res.ok_bind]
    exact ih { o with results := o.results.insert (uniqueLabel o.attrCount lf) (lf.label, v) }
      (fun q hq => h q (by simp [hq]))

theorem fst_toRow (ac : SMap Nat) (l : List (Leaf × F)) :
    (l.map (toRow ac)).map Prod.fst = (l.map Prod.fst).map (uniqueLabel ac) := by
  simp [toRow, Function.comp_def]

theorem foldl_add_eq_sum {α : Type*} (f : α → F) : ∀ (l : List α) (z : F),
    l.foldl (fun r x => r + f x) z = z + (l.map f).sum
  | [], z => by simp
  | x :: l, z => by simp [foldl_add_eq_sum f l, add_assoc]

/-- coefficient stored for a key, zero when there is none -/
def coeffOf (co : SMap (Bytes × F)) (k : Bytes) : F := ((SMap.find k co).map Prod.snd).getD 0

theorem testSecretRecovery_eq (co sh : SMap (Bytes × F)) :
    testSecretRecovery co sh = (sh.map fun p => coeffOf co p.1 * p.2.2).sum := by
  have : testSecretRecovery co sh = sh.foldl (fun r x => r + coeffOf co x.1 * x.2.2) 0 := by
    unfold testSecretRecovery
    congr 1
    funext r x
    unfold coeffOf
    cases SMap.find x.1 co <;> simp
  rw [this, foldl_add_eq_sum, zero_add]

theorem zsum_lookup (ac : SMap Nat) (co : SMap (Bytes × F)) :
    ∀ (a : List (Leaf × Option F)) (b : List (Leaf × F)), a.map Prod.fst = b.map Prod.fst →
    (∀ p ∈ a, SMap.find (uniqueLabel ac p.1) co = p.2.map fun c => (p.1.label, c)) →
    zsum a b = ((b.map (toRow ac)).map fun p => coeffOf co p.1 * p.2.2).sum
  | [], [], _, _ => by simp [zsum]
  | [], _ :: _, h, _ => by simp at h
  | _ :: _, [], h, _ => by simp at h
  | x :: a, y :: b, h, hc => by
    simp only [List.map_cons, List.cons.injEq] at h
    have ih := zsum_lookup ac co a b h.2 (fun p hp => hc p (by simp [hp]))
    have hx := hc x (by simp)
    unfold zsum at ih ⊢
    simp only [List.zipWith_cons_cons, List.sum_cons, List.map_cons, ih]
    congr 1
    simp only [toRow, coeffOf, ← h.1, hx]
    cases x.2 <;> simp

theorem recRows_keys_sublist (l : List (Leaf × Option F)) :
    ((recRows l).map Prod.fst).Sublist (l.map Prod.fst) := by
  induction l with
  | nil => simp [recRows]
  | cons p l ih =>
    obtain ⟨lf, o⟩ := p
    cases o with
    | none => simpa [recRows] using ih.cons lf
    | some c => simpa [recRows] using ih.cons_cons lf

theorem mem_recRows {l : List (Leaf × Option F)} {lf : Leaf} {c : F} :
    (lf, c) ∈ recRows l ↔ (lf, some c) ∈ l := by
  simp [recRows]

/-- The recovered coefficients combine the shares to the secret. -/
theorem recon (tape : Nat → F) (A : List Bytes) (t : TNode) (ac : SMap Nat) (s : F)
    (hao : AndOr t) (hb : BinAnd t) (hg : Good A t) (hm : t.mark = true)
    (hn : ((leaves t).map (uniqueLabel ac)).Nodup) :
    testSecretRecovery
      (SMap.addRows [] ((recRows (recFull t (1 : F) true)).map (toRow ac)))
      (SMap.addRows [] ((emit tape t s 0).map (toRow ac))) = s := by
  have hn' : ((rleaves t).map (uniqueLabel ac)).Nodup :=
    ((rleaves_perm t).map _).nodup_iff.mpr hn
  have hperm := SMap.perm_addRows ((emit tape t s 0).map (toRow ac)) [] (by
    rw [fst_toRow, emit_fst]; simpa using hn')
  rw [testSecretRecovery_eq, (hperm.map _).sum_eq, List.append_nil,
    ← zsum_lookup ac _ (recFull t (1 : F) true) (emit tape t s 0)
      (by rw [recFull_fst, emit_fst]) ?_, zsum_eq tape A t hao hb hg hm, one_mul]
  -- every leaf finds its own coefficient
  have hkeys : (((recRows (recFull t (1 : F) true)).map (toRow ac)).map Prod.fst).Nodup := by
    rw [fst_toRow]
    refine List.Nodup.sublist ((recRows_keys_sublist _).map _) ?_
    rw [recFull_fst]; exact hn'
  intro p hp
  obtain ⟨lf, o⟩ := p
  cases o with
  | some c =>
    simp only [Option.map_some]
    exact SMap.find_addRows_mem _ _ _ _ hkeys
      (List.mem_map.mpr ⟨(lf, c), mem_recRows.mpr hp, rfl⟩)
  | none =>
    simp only [Option.map_none]
    rw [SMap.find_addRows_not_mem]
    · rfl
    · rw [fst_toRow]
      intro hmem
      obtain ⟨lf', h1, h2⟩ := List.mem_map.mp hmem
      obtain ⟨⟨lf'', c⟩, h3, h4⟩ := List.mem_map.mp h1
      simp only at h4; subst h4
      have h5 : (lf'', some c) ∈ recFull t (1 : F) true := mem_recRows.mp h3
      -- both entries have the same unique label, hence are the same entry
      have hnd : ((recFull t (1 : F) true).map (fun p => uniqueLabel ac p.1)).Nodup := by
        have : (recFull t (1 : F) true).map (fun p => uniqueLabel ac p.1)
            = ((recFull t (1 : F) true).map Prod.fst).map (uniqueLabel ac) := by simp
        rw [this, recFull_fst]; exact hn'
      have := List.inj_on_of_nodup_map hnd h5 hp h2
      simp at this

end Abe
