import Verif.Proof.Scan
import Mathlib.Algebra.BigOperators.Group.List.Basic
import Mathlib.Tactic.Ring
import Mathlib.Tactic.FieldSimp
/-! Sharing and recovery loops as structural recursion, and their product. -/
set_option linter.unusedSimpArgs false
set_option linter.unusedSectionVars false
set_option autoImplicit false
namespace Abe
variable {F : Type} [Field F] [DecidableEq F]

/-! ### Sharing -/

mutual
/-- Random draws used by a tree. -/
def draws : TNode → Nat
  | .leaf _ _ _ _ => 0
  | .gate _ ty thr subs => thresholdValue ty thr subs.length + drawsL subs
/-- draws of a forest -/
def drawsL : List TNode → Nat
  | [] => 0
  | c :: cs => draws c + drawsL cs
end

mutual
/-- The (leaf, share) pairs in the order the loop produces them (last child first). -/
def emit (tape : Nat → F) : TNode → F → Nat → List (Leaf × F)
  | .leaf _ pre lab idx, s, _ => [(⟨pre, lab, idx⟩, s)]
  | .gate _ ty thr subs, s, pos =>
    emitL tape ((drawCoeffs tape pos (thresholdValue ty thr subs.length)).set 0 s) subs 0
      (pos + thresholdValue ty thr subs.length)
/-- shares of the children `i`, `i+1`, … -/
def emitL (tape : Nat → F) (coeffs : List F) : List TNode → Nat → Nat → List (Leaf × F)
  | [], _, _ => []
  | c :: cs, i, pos =>
    emitL tape coeffs cs (i + 1) pos
      ++ emit tape c (evaluatePolynomial coeffs (i + 1)) (pos + drawsL cs)
end

/-- Record a list of rows. -/
def addAll : LSSS F → List (Leaf × F) → Res (LSSS F)
  | o, [] => .ok o
  | o, (l, v) :: rest => do
    let o' ← addShare o l.pre l.lab l.idx v
    addAll o' rest

theorem addAll_append (o : LSSS F) (a b : List (Leaf × F)) :
    addAll o (a ++ b) = addAll o a >>= fun o' => addAll o' b := by
  induction a generalizing o with
  | nil => rfl
  | cons x xs ih =>
    obtain ⟨l, v⟩ := x
    simp only [List.cons_append, addAll]
    cases addShare o l.pre l.lab l.idx v with
    | ok o' => simp [ih]
    | throw e => rfl
    | ub => rfl
    | abort => rfl

theorem res_bind_assoc {α β γ} (x : Res α) (f : α → Res β) (g : β → Res γ) :
    (x >>= f) >>= g = x >>= fun a => f a >>= g := by
  cases x <;> rfl

/-- Stack entries for children `i`, `i+1`, …. -/
def childSharesFrom (coeffs : List F) (i : Nat) (subs : List TNode) : List (TNode × F) :=
  subs.mapIdx fun k c => (c, evaluatePolynomial coeffs (i + k + 1))

theorem childShares_from (coeffs : List F) (subs : List TNode) :
    childShares coeffs subs = childSharesFrom coeffs 0 subs := by
  simp [childShares, childSharesFrom]

theorem childSharesFrom_cons (coeffs : List F) (i : Nat) (c : TNode) (cs : List TNode) :
    childSharesFrom coeffs i (c :: cs)
      = (c, evaluatePolynomial coeffs (i + 1)) :: childSharesFrom coeffs (i + 1) cs := by
  simp only [childSharesFrom, List.mapIdx_cons, Nat.add_zero, List.cons.injEq, true_and]
  congr 1
  funext k d
  congr 2
  omega

theorem shareLoopL (tape : Nat → F) (coeffs : List F) : ∀ (subs : List TNode),
    (∀ c ∈ subs, ∀ fuel stk s pos o, shareLoop false tape (c.size + fuel) ((c, s) :: stk) pos o =
      addAll o (emit tape c s pos) >>= fun o' => shareLoop false tape fuel stk (pos + draws c) o') →
    ∀ i fuel stk pos o,
    shareLoop false tape (sizeL subs + fuel) ((childSharesFrom coeffs i subs).reverse ++ stk) pos o =
      addAll o (emitL tape coeffs subs i pos) >>= fun o' =>
        shareLoop false tape fuel stk (pos + drawsL subs) o'
  | [], _, i, fuel, stk, pos, o => by
    simp [childSharesFrom, sizeL, emitL, addAll, drawsL]
  | c :: cs, h, i, fuel, stk, pos, o => by
    rw [childSharesFrom_cons, List.reverse_cons, List.append_assoc]
    have e : sizeL (c :: cs) + fuel = sizeL cs + (c.size + fuel) := by simp only [sizeL]; omega
    rw [e, shareLoopL tape coeffs cs (fun d hd => h d (by simp [hd])) (i + 1)]
    simp only [emitL, addAll_append, res_bind_assoc]
    congr 1
    funext o'
    simp only [List.singleton_append]
    rw [h c (by simp)]
    congr 1
    funext o''
    congr 1
    simp only [drawsL]; omega

/-- The sharing loop records exactly `emit`. -/
theorem shareLoop_eq (tape : Nat → F) : ∀ t, PosGates t → ∀ fuel stk s pos o,
    shareLoop false tape (t.size + fuel) ((t, s) :: stk) pos o =
      addAll o (emit tape t s pos) >>= fun o' =>
        shareLoop false tape fuel stk (pos + draws t) o' := by
  apply TNode.ind
  · intro fl pre lab idx _ fuel stk s pos o
    have e : (TNode.leaf fl pre lab idx).size + fuel = fuel + 1 := by simp [TNode.size]; omega
    rw [e]
    simp only [shareLoop, emit, addAll, draws, Nat.add_zero]
    cases addShare o pre lab idx s <;> rfl
  · intro fl ty thr subs ih hp fuel stk s pos o
    obtain ⟨h0, hs⟩ := hp
    rw [PosGatesL_iff] at hs
    have e : (TNode.gate fl ty thr subs).size + fuel = (sizeL subs + fuel) + 1 := by
      simp only [TNode.size]; omega
    rw [e]
    simp only [shareLoop, Bool.false_eq_true, if_false, h0, childShares_from]
    rw [shareLoopL tape _ subs (fun c hc => ih c hc (hs c hc))]
    simp only [emit, draws]
    congr 1
    funext o'
    congr 1
    omega

/-! ### Recovery -/

/-- The value of a computation that succeeds. -/
def Res.val (x : Res F) : F :=
  match x with
  | .ok v => v
  | _ => 0

mutual
/-- For every leaf, in the order of `emit`, the coefficient it receives, if any. -/
def recFull : TNode → F → Bool → List (Leaf × Option F)
  | .leaf _ pre lab idx, c, act => [(⟨pre, lab, idx⟩, if act then some c else none)]
  | .gate _ ty _ subs, c, act => recFullL subs (recoverThreshold ty subs.length) c act subs 0
/-- coefficients below the children `i`, `i+1`, … -/
def recFullL (all : List TNode) (thr : Nat) (c : F) (act : Bool) :
    List TNode → Nat → List (Leaf × Option F)
  | [], _ => []
  | d :: ds, i =>
    recFullL all thr c act ds (i + 1)
      ++ recFull d (c * (calculateCoefficient all i thr : Res F).val) (act && d.mark)
end

/-- The rows the loop records. -/
def recRows (l : List (Leaf × Option F)) : List (Leaf × F) :=
  l.filterMap fun p => p.2.map fun c => (p.1, c)

theorem recRows_append (a b : List (Leaf × Option F)) :
    recRows (a ++ b) = recRows a ++ recRows b := by simp [recRows]

theorem recFullL_inactive (all : List TNode) (thr : Nat) : ∀ (ds : List TNode),
    (∀ d ∈ ds, ∀ c : F, ∀ p ∈ recFull d c false, p.2 = none) →
    ∀ (c : F) i, ∀ p ∈ recFullL all thr c false ds i, p.2 = none
  | [], _, c, i, p, hp => by simp [recFullL] at hp
  | d :: ds, h, c, i, p, hp => by
    simp only [recFullL, List.mem_append, Bool.false_and] at hp
    rcases hp with hp | hp
    · exact recFullL_inactive all thr ds (fun e he => h e (by simp [he])) c _ p hp
    · exact h d (by simp) _ p hp

theorem recFull_inactive : ∀ (t : TNode) (c : F), ∀ p ∈ recFull t c false, p.2 = none := by
  apply TNode.ind
  · intro fl pre lab idx c p hp
    simp [recFull] at hp; simp [hp]
  · intro fl ty thr subs ih c p hp
    exact recFullL_inactive _ _ subs ih c 0 p hp

theorem recRows_inactive (t : TNode) (c : F) : recRows (recFull t c false) = [] := by
  unfold recRows
  rw [List.filterMap_eq_nil_iff]
  intro p hp
  rw [recFull_inactive t c p hp]; rfl

mutual
/-- Nodes the recovery loop visits below a marked node. -/
def msize : TNode → Nat
  | .leaf _ _ _ _ => 1
  | .gate _ _ _ subs => 1 + msizeL subs
/-- marked part of a forest -/
def msizeL : List TNode → Nat
  | [] => 0
  | c :: cs => (if c.mark then msize c else 0) + msizeL cs
end

theorem msizeL_le : ∀ l : List TNode, (∀ c ∈ l, msize c ≤ c.size) → msizeL l ≤ sizeL l
  | [], _ => by simp [msizeL]
  | c :: cs, h => by
    have h1 := msizeL_le cs (fun d hd => h d (by simp [hd]))
    have h2 := h c (by simp)
    simp only [msizeL, sizeL]
    split <;> omega

theorem msize_le : ∀ t, msize t ≤ t.size := by
  apply TNode.ind
  · intros; simp [msize, TNode.size]
  · intro fl ty thr subs ih
    have := msizeL_le subs ih
    simp only [msize, TNode.size]; omega

/-- Stack entries for the marked children. -/
def markedFrom (all : List TNode) (thr : Nat) (c : F) : List TNode → Nat → List (TNode × F)
  | [], _ => []
  | d :: ds, i =>
    if d.mark then (d, c * (calculateCoefficient all i thr : Res F).val) :: markedFrom all thr c ds (i + 1)
    else markedFrom all thr c ds (i + 1)

theorem childCoeffs_eq (all : List TNode) (thr : Nat) (c : F) : ∀ (ds : List TNode) (i : Nat),
    (∀ k, (h : k < ds.length) → ds[k].mark = true →
      ∃ v : F, calculateCoefficient all (i + k) thr = .ok v) →
    childCoeffs all thr c (ds.zipIdx i) = .ok (markedFrom all thr c ds i)
  | [], i, _ => by simp [childCoeffs, markedFrom]
  | d :: ds, i, h => by
    have ih := childCoeffs_eq all thr c ds (i + 1) (by
      intro k hk hm
      have := h (k + 1) (by simpa using hk) (by simpa using hm)
      simpa [Nat.add_assoc, Nat.add_comm 1 k] using this)
    simp only [List.zipIdx_cons, childCoeffs, markedFrom]
    by_cases hm : d.mark = true
    · obtain ⟨v, hv⟩ := h 0 (by simp) (by simpa using hm)
      rw [Nat.add_zero] at hv
      simp [hm, hv, ih, Res.val]
    · simp [hm, ih]

theorem recoverLoopL (all : List TNode) (thr : Nat) (c : F) : ∀ (ds : List TNode),
    (∀ d ∈ ds, d.mark = true → ∀ fuel stk (v : F) r o,
      recoverLoop (msize d + fuel) ((d, v) :: stk) r o =
      addAll o (recRows (recFull d v true)) >>= fun o' => recoverLoop fuel stk true o') →
    ∀ i fuel stk o,
    recoverLoop (msizeL ds + fuel) ((markedFrom all thr c ds i).reverse ++ stk) true o =
      addAll o (recRows (recFullL all thr c true ds i)) >>= fun o' => recoverLoop fuel stk true o'
  | [], _, i, fuel, stk, o => by
    simp [markedFrom, msizeL, recFullL, recRows, addAll]
  | d :: ds, h, i, fuel, stk, o => by
    have ih := recoverLoopL all thr c ds (fun e he => h e (by simp [he])) (i + 1)
    simp only [markedFrom, recFullL, recRows_append, addAll_append, Bool.true_and, msizeL]
    by_cases hm : d.mark = true
    · simp only [hm, if_true, List.reverse_cons, List.append_assoc, List.singleton_append]
      have e : msize d + msizeL ds + fuel = msizeL ds + (msize d + fuel) := by omega
      rw [e, ih, res_bind_assoc]
      congr 1
      funext o'
      rw [h d (by simp) hm]
    · simp only [hm, if_false, Nat.zero_add, Bool.false_eq_true]
      have hm' : d.mark = false := by simpa using hm
      rw [ih, res_bind_assoc, recRows_inactive]
      simp [addAll]

/-! ### The Lagrange coefficients of satisfied gates -/

theorem calc_and_one (c0 : TNode) : (calculateCoefficient [c0] 0 1 : Res F) = .ok 1 := by
  simp [calculateCoefficient, List.range_succ, coeffLoop]

theorem calc_and_two (c0 c1 : TNode) (h0 : c0.mark = true) (h1 : c1.mark = true) :
    (calculateCoefficient [c0, c1] 0 2 : Res F) = .ok 2 ∧
    (calculateCoefficient [c0, c1] 1 2 : Res F) = .ok (-1) := by
  have r2 : List.range 2 = [0, 1] := rfl
  constructor
  · have d : ((0 + 1 : Nat) : F) - ((1 + 1 : Nat) : F) = -1 := by push_cast; ring
    have hd : ((0 + 1 : Nat) : F) - ((1 + 1 : Nat) : F) ≠ 0 := by rw [d]; simp
    simp only [calculateCoefficient, List.length_cons, List.length_nil, r2, coeffLoop, markAt,
      List.getElem?_cons_zero, List.getElem?_cons_succ, h0, h1]
    simp only [hd, if_false, d]
    norm_num
  · have d : ((1 + 1 : Nat) : F) - ((0 + 1 : Nat) : F) = 1 := by push_cast; ring
    have hd : ((1 + 1 : Nat) : F) - ((0 + 1 : Nat) : F) ≠ 0 := by rw [d]; simp
    simp only [calculateCoefficient, List.length_cons, List.length_nil, r2, coeffLoop, markAt,
      List.getElem?_cons_zero, List.getElem?_cons_succ, h0, h1]
    simp only [hd, if_false, d]
    norm_num

theorem calc_or (l r : List TNode) (c : TNode) (hl : ∀ d ∈ l, d.mark = false) :
    (calculateCoefficient (l ++ c :: r) l.length 1 : Res F) = .ok 1 := by
  have r1 : List.range 1 = [0] := rfl
  unfold calculateCoefficient
  rw [if_neg (by simp), r1]
  simp only [coeffLoop]
  rw [if_neg]
  cases l with
  | nil => simp
  | cons d ds =>
    have : d.mark = false := hl d (by simp)
    simp [markAt, this]

/-- Under a marked gate every marked child has a coefficient. -/
theorem calc_ok_bin {A : List Bytes} {fl : Flags} {ty : Gate} {thr : Nat} {subs : List TNode}
    (hao : AndOr (.gate fl ty thr subs)) (hb : BinAnd (.gate fl ty thr subs))
    (hg : Good A (.gate fl ty thr subs)) (hm : fl.mark = true) :
    ∀ k, (h : k < subs.length) → subs[k].mark = true →
      ∃ v : F, calculateCoefficient subs (0 + k) (recoverThreshold ty subs.length) = .ok v := by
  intro k hk hmk
  obtain ⟨hty, hne, -⟩ := hao
  rw [Nat.zero_add]
  rcases hty with rfl | rfl
  · have hall := hg.1 hm rfl
    have hlen := hb.1 rfl
    match subs, hne, hlen, hall, hk with
    | [c0], _, _, _, hk =>
      have : k = 0 := by simpa using hk
      subst this
      exact ⟨1, calc_and_one c0⟩
    | [c0, c1], _, _, hall, hk =>
      obtain ⟨h1, h2⟩ := calc_and_two (F := F) c0 c1 (hall c0 (by simp)) (hall c1 (by simp))
      have : k = 0 ∨ k = 1 := by simp at hk; omega
      rcases this with rfl | rfl
      · exact ⟨2, h1⟩
      · exact ⟨-1, h2⟩
    | _ :: _ :: _ :: _, _, hlen, _, _ => simp at hlen
  · obtain ⟨l, c, r, rfl, hc, hl, hr⟩ := hg.2.1 hm rfl
    have hkl : k = l.length := by
      rcases Nat.lt_trichotomy k l.length with h | h | h
      · rw [List.getElem_append_left h] at hmk
        have := hl _ (List.getElem_mem h)
        rw [hmk] at this; simp at this
      · exact h
      · rw [List.getElem_append_right (by omega)] at hmk
        obtain ⟨j, hj⟩ : ∃ j, k - l.length = j + 1 := ⟨k - l.length - 1, by omega⟩
        have hmem : (c :: r)[k - l.length]'(by simp at hk ⊢; omega) ∈ r := by
          simp only [hj, List.getElem_cons_succ]
          exact List.getElem_mem _
        have := hr _ hmem
        rw [hmk] at this; simp at this
    subst hkl
    exact ⟨1, calc_or l r c hl⟩

theorem coeffLoop_ok (subs : List TNode) (index : Nat) : ∀ (is : List Nat) (r : F),
    (∀ i ∈ is, i ≠ index → ((index + 1 : Nat) : F) - ((i + 1 : Nat) : F) ≠ 0) →
    ∃ v, coeffLoop subs index is r = .ok v
  | [], r, _ => ⟨r, rfl⟩
  | i :: is, r, h => by
    simp only [coeffLoop]
    split
    · rename_i hc
      have hne : i ≠ index := by simp at hc; exact hc.2
      have hd := h i (by simp) hne
      rw [if_neg hd]
      exact coeffLoop_ok subs index is _ (fun j hj => h j (by simp [hj]))
    · exact coeffLoop_ok subs index is _ (fun j hj => h j (by simp [hj]))

theorem cast_sub_ne {n : Nat} (hz : ∀ k, 0 < k → k ≤ n → (k : F) ≠ 0) {i j : Nat} (hi : i < n)
    (hj : j < n) (hne : i ≠ j) : ((j + 1 : Nat) : F) - ((i + 1 : Nat) : F) ≠ 0 := by
  rcases Nat.lt_or_gt_of_ne hne with h | h
  · have e : ((j + 1 : Nat) : F) - ((i + 1 : Nat) : F) = ((j - i : Nat) : F) := by
      rw [Nat.cast_sub (by omega)]; push_cast; ring
    rw [e]; exact hz _ (by omega) (by omega)
  · have e : ((j + 1 : Nat) : F) - ((i + 1 : Nat) : F) = -((i - j : Nat) : F) := by
      rw [Nat.cast_sub (by omega)]; push_cast; ring
    rw [e, neg_ne_zero]; exact hz _ (by omega) (by omega)

theorem length_le_sizeL : ∀ l : List TNode, l.length ≤ sizeL l
  | [] => by simp
  | c :: cs => by
    have h1 : 1 ≤ c.size := by cases c <;> simp [TNode.size]
    have := length_le_sizeL cs
    simp only [List.length_cons, sizeL]; omega

theorem size_le_sizeL {c : TNode} : ∀ {l : List TNode}, c ∈ l → c.size ≤ sizeL l
  | d :: ds, h => by
    rcases List.mem_cons.mp h with rfl | h
    · simp [sizeL]
    · have := size_le_sizeL h; simp only [sizeL]; omega

/-- Either AND gates are binary, or the field is large enough for the tree. -/
def Solvable (F : Type) [Field F] (t : TNode) : Prop :=
  BinAnd t ∨ ∀ k, 0 < k → k ≤ t.size → (k : F) ≠ 0

theorem Solvable.child {fl ty thr subs c} (h : Solvable F (.gate fl ty thr subs)) (hc : c ∈ subs) :
    Solvable F c := by
  rcases h with h | h
  · exact .inl ((BinAndL_iff _).1 h.2 c hc)
  · refine .inr fun k hk hle => h k hk ?_
    have := size_le_sizeL hc
    simp only [TNode.size]; omega

/-- Under a marked gate every marked child has a coefficient. -/
theorem calc_ok {A : List Bytes} {fl : Flags} {ty : Gate} {thr : Nat} {subs : List TNode}
    (hao : AndOr (.gate fl ty thr subs)) (hb : Solvable F (.gate fl ty thr subs))
    (hg : Good A (.gate fl ty thr subs)) (hm : fl.mark = true) :
    ∀ k, (h : k < subs.length) → subs[k].mark = true →
      ∃ v : F, calculateCoefficient subs (0 + k) (recoverThreshold ty subs.length) = .ok v := by
  rcases hb with hb | hz
  · exact calc_ok_bin hao hb hg hm
  · intro k hk hmk
    rw [Nat.zero_add]
    have hlen := length_le_sizeL subs
    have hthr : recoverThreshold ty subs.length ≤ subs.length := by
      rcases hao.1 with rfl | rfl
      · simp [recoverThreshold]
      · simp only [recoverThreshold]; omega
    unfold calculateCoefficient
    rw [if_neg (by omega)]
    apply coeffLoop_ok
    intro i hi hne
    rw [List.mem_range] at hi
    exact cast_sub_ne (n := subs.length)
      (fun k hk hle => hz k hk (by simp only [TNode.size]; omega)) (by omega) hk hne

/-- The recovery loop records exactly the coefficients of `recFull`. -/
theorem recoverLoop_eq (A : List Bytes) : ∀ t, AndOr t → Solvable F t → Good A t → t.mark = true →
    ∀ fuel stk (v : F) r o,
    recoverLoop (msize t + fuel) ((t, v) :: stk) r o =
      addAll o (recRows (recFull t v true)) >>= fun o' => recoverLoop fuel stk true o' := by
  apply TNode.ind
  · intro fl pre lab idx _ _ _ _ fuel stk v r o
    have e : msize (.leaf fl pre lab idx) + fuel = fuel + 1 := by simp [msize]; omega
    rw [e]
    simp only [recoverLoop, recFull, recRows, if_true, List.filterMap_cons, Option.map_some,
      List.filterMap_nil, addAll]
    cases addShare o pre lab idx v <;> rfl
  · intro fl ty thr subs ih hao hb hg hm fuel stk v r o
    have hm' : fl.mark = true := hm
    have e : msize (.gate fl ty thr subs) + fuel = (msizeL subs + fuel) + 1 := by
      simp only [msize]; omega
    rw [e]
    have hc := childCoeffs_eq subs (recoverThreshold ty subs.length) v subs 0
      (calc_ok (F := F) hao hb hg hm')
    have hne : (markedFrom subs (recoverThreshold ty subs.length) v subs 0).isEmpty = false := by
      have key : ∀ (ds : List TNode) (i : Nat), (∃ d ∈ ds, d.mark = true) →
          (markedFrom subs (recoverThreshold ty subs.length) v ds i).isEmpty = false := by
        intro ds
        induction ds with
        | nil => simp
        | cons d ds ih =>
          intro i hd
          simp only [markedFrom]
          by_cases h : d.mark = true
          · simp [h]
          · simp only [h, if_false, Bool.false_eq_true]
            apply ih
            obtain ⟨x, hx, hxm⟩ := hd
            rcases List.mem_cons.mp hx with rfl | hx
            · exact absurd hxm h
            · exact ⟨x, hx, hxm⟩
      apply key
      rcases hao.1 with rfl | rfl
      · obtain ⟨d, hd⟩ := List.exists_mem_of_ne_nil subs hao.2.1
        exact ⟨d, hd, hg.1 hm' rfl d hd⟩
      · obtain ⟨l, c, r', rfl, hc', -⟩ := hg.2.1 hm' rfl
        exact ⟨c, by simp, hc'⟩
    simp only [recoverLoop]
    rw [hc]
    simp only [Res.ok_bind, hne, Bool.not_false, Bool.or_true]
    rw [recoverLoopL subs _ v subs (fun d hd hdm => ih d hd ((AndOrL_iff _).1 hao.2.2 d hd)
      (hb.child hd) ((GoodL_iff _ _).1 hg.2.2 d hd) hdm)]
    rfl

end Abe
