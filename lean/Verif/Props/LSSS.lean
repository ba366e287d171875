import Verif.Proof.LsssCopy
import Mathlib.Algebra.Field.ZMod
import Mathlib.Data.ZMod.Basic
import Mathlib.Data.List.Sort
import Mathlib.Algebra.Field.Rat
import Mathlib.Tactic.NormNum.Prime
import Mathlib.Tactic.IntervalCases
/-!
# Secret sharing (C01–C12, C72)

Vocabulary (Verif/Spec/Policy.lean): `sat A t` is the Boolean value of the policy tree `t` for the
attributes `A`; `leaves t` its leaves; `AndOr` every gate is a non-empty AND or OR; `BinAnd` AND gates
have at most two inputs; `Fresh` no scan has run on the tree; `uniqueLabel` the key of a leaf's row.
-/
set_option linter.unusedSimpArgs false
set_option linter.unusedSectionVars false
set_option autoImplicit false
namespace Abe
variable {F : Type} [Field F] [DecidableEq F]

/-! ### Concrete data used to show that hypotheses can be met -/
namespace LsssEx

/-- one admissible `std::sort` -/
def sort : StdSort where
  fn l := l.insertionSort (fun a b => a.2 ≤ b.2)
  perm l := List.perm_insertionSort _ l
  sorted l := by
    have : Std.Total (fun a b : Nat × Nat => a.2 ≤ b.2) := ⟨fun a b => Nat.le_total _ _⟩
    have : IsTrans (Nat × Nat) (fun a b : Nat × Nat => a.2 ≤ b.2) :=
      ⟨fun a b c h1 h2 => Nat.le_trans h1 h2⟩
    exact List.pairwise_insertionSort _ l

/-- leaf `s` with index `i` -/
def lf (s : Bytes) (i : Nat) : TNode := .leaf {} [] s (some i)
/-- `x and y` -/
def and2 (x y : TNode) : TNode := .gate {} .and 0 [x, y]
/-- `x or y` -/
def or2 (x y : TNode) : TNode := .gate {} .or 0 [x, y]

/-- `(a and b) or (a and c)`; attribute `a` occurs twice. -/
def t1 : TNode := or2 (and2 (lf b!"a" 0) (lf b!"b" 0)) (and2 (lf b!"a" 1) (lf b!"c" 0))
/-- the policy of `t1` -/
def p1 : Policy := { root := some t1, hasDup := true, dupCount := [(b!"a", 2)] }

instance : Fact (Nat.Prime 11) := ⟨by norm_num⟩

end LsssEx
open LsssEx

/-! ### C01 -/

/-- Sharing a secret and recombining the rows an authorised attribute set recovers gives the
secret back, for every tape of random coefficients. Both calls use new secret-sharing objects. -/
theorem C01_share_recover_inverse (S : StdSort) (p : Policy) (t : TNode) (A : List Bytes) (s : F)
    (tape : Nat → F) (hroot : p.root = some t) (hao : AndOr t) (hbin : BinAnd t) (hfresh : Fresh t)
    (hidx : IdxOkT (if p.hasDup then p.dupCount else []) t)
    (hlabels : ((leaves t).map (uniqueLabel (if p.hasDup then p.dupCount else []))).Nodup)
    (hsat : sat A t = true) :
    ∃ (shares coeffs : LSSS F) (n : Nat) (p' : Policy),
      shareSecret false {} (some p) s tape = .ok (shares, n) ∧
      recoverCoefficients S false {} (some p) A = .ok (true, coeffs, p') ∧
      testSecretRecovery coeffs.results shares.results = s := by
  have e : effCount ({} : LSSS F) p = if p.hasDup then p.dupCount else [] := rfl
  obtain ⟨t', h2, h3⟩ := recover_sat S ({} : LSSS F) p t A hroot hao hfresh (.inl hbin)
    (by rw [e]; exact hidx) hsat
  refine ⟨_, _, _, _, shareSecret_ok {} p t s tape hroot hao.pos (by rw [e]; exact hidx), h3, ?_⟩
  have hr := recon tape A t' (effCount ({} : LSSS F) p) s (h2.same.andOr.mpr hao)
    (h2.same.binAnd.mpr hbin) h2.good (by rw [h2.mark, hsat]) (by rw [h2.same.leaves, e]; exact hlabels)
  rw [h2.same.emit] at hr
  exact hr

/-- `(a and b) or (a and c)` with attributes `{a, c}` meets every hypothesis. -/
example : sat [b!"a", b!"c"] t1 = true ∧ AndOr t1 ∧ BinAnd t1 ∧ Fresh t1 ∧
    ((leaves t1).map (uniqueLabel p1.dupCount)).Nodup ∧ IdxOkT p1.dupCount t1 := by
  refine ⟨by decide, ?_, ?_, ?_, by decide, ?_⟩
  · simp [t1, or2, and2, lf, AndOr, AndOrL]
  · simp [t1, or2, and2, lf, BinAnd, BinAndL]
  · simp [t1, or2, and2, lf, Fresh, FreshL, TNode.flags]
  · intro l hl; simp [t1, or2, and2, lf, leaves, leavesL] at hl
    rcases hl with rfl | rfl | rfl | rfl <;> simp [IdxOk]

/-! ### C02 -/

/-- `recoverCoefficients` on a fresh policy answers the Boolean formula and leaves no rows when the
answer is no. The field must be larger than the tree, or AND gates binary. -/
theorem C02_recover_iff_satisfied (S : StdSort) (o : LSSS F) (p : Policy) (t : TNode)
    (A : List Bytes) (hroot : p.root = some t) (hao : AndOr t) (hfresh : Fresh t)
    (hsolve : BinAnd t ∨ ∀ k, 0 < k → k ≤ t.size → (k : F) ≠ 0)
    (hidx : ∀ l ∈ leaves t, l.idx.isSome) :
    ∃ (o' : LSSS F) (p' : Policy),
      recoverCoefficients S false o (some p) A = .ok (sat A t, o', p') ∧
      (sat A t = false → o'.results = []) ∧ (sat A t = true → o'.results ≠ []) := by
  have hi : IdxOkT (effCount o p) t := fun l hl _ => hidx l hl
  cases hs : sat A t with
  | true =>
    obtain ⟨t', h2, h3⟩ := recover_sat S o p t A hroot hao hfresh hsolve hi hs
    refine ⟨_, _, h3, by simp, fun _ => ?_⟩
    -- some leaf received a coefficient
    have hex : ∀ t : TNode, AndOr t → Good A t → t.mark = true →
        ∀ v : F, recRows (recFull t v true) ≠ [] := by
      apply TNode.ind
      · intro fl pre lab idx _ _ _ v; simp [recFull, recRows]
      · intro fl ty thr subs ih hao hg hm v
        have hm' : fl.mark = true := hm
        obtain ⟨d, hd, hdm⟩ : ∃ d ∈ subs, d.mark = true := by
          rcases hao.1 with rfl | rfl
          · obtain ⟨d, hd⟩ := List.exists_mem_of_ne_nil subs hao.2.1
            exact ⟨d, hd, hg.1 hm' rfl d hd⟩
          · obtain ⟨l, c, r', rfl, hc', -⟩ := hg.2.1 hm' rfl
            exact ⟨c, by simp, hc'⟩
        have key : ∀ (ds : List TNode) (i : Nat), d ∈ ds →
            recRows (recFullL subs (recoverThreshold ty subs.length) v true ds i) ≠ [] := by
          intro ds
          induction ds with
          | nil => simp
          | cons e ds ih' =>
            intro i hmem
            simp only [recFullL, recRows_append, Bool.true_and, ne_eq, List.append_eq_nil_iff, not_and_or]
            rcases List.mem_cons.mp hmem with rfl | h
            · right
              rw [hdm]
              exact ih d hd ((AndOrL_iff _).1 hao.2.2 d hd) ((GoodL_iff _ _).1 hg.2.2 d hd) hdm _
            · left; exact ih' _ h
        simp only [recFull]
        exact key subs 0 hd
    have hne := hex t' (h2.same.andOr.mpr hao) h2.good (by rw [h2.mark, hs]) (1 : F)
    cases hl : recRows (recFull t' (1 : F) true) with
    | nil => exact absurd hl hne
    | cons q qs =>
      simp only [List.map_cons, SMap.addRows, ne_eq]
      intro h0
      have hk : ∀ (l : List (Bytes × (Bytes × F))) (m : SMap (Bytes × F)), m ≠ [] →
          SMap.addRows m l ≠ [] := by
        intro l
        induction l with
        | nil => intro m h; exact h
        | cons x l ih =>
          intro m h
          apply ih
          cases m with
          | nil => exact absurd rfl h
          | cons y m =>
            obtain ⟨ky, vy⟩ := y
            simp only [SMap.insert]
            split
            · simp
            · split <;> simp
      exact hk _ _ (by simp [toRow, SMap.insert]) h0
  | false =>
    obtain ⟨t', h2, h3⟩ := recover_unsat S o p t A hroot hao hfresh hs
    exact ⟨_, _, h3, fun _ => rfl, by simp⟩

example : sat [b!"b", b!"c"] t1 = false ∧ AndOr t1 ∧ Fresh t1 ∧ BinAnd t1 ∧
    ∀ l ∈ leaves t1, l.idx.isSome := by
  refine ⟨by decide, ?_, ?_, ?_, by decide⟩
  · simp [t1, or2, and2, lf, AndOr, AndOrL]
  · simp [t1, or2, and2, lf, Fresh, FreshL, TNode.flags]
  · simp [t1, or2, and2, lf, BinAnd, BinAndL]

/-! ### C03 -/

/-- `checkIfSatisfied` on a policy with clear flags returns the value of the Boolean formula, and the
count zero when it is false. -/
theorem C03_check_decides_formula (S : StdSort) (t : TNode) (A : List Bytes) (hao : AndOr t)
    (hfresh : Fresh t) :
    ∃ (n : Int) (t' : TNode), checkIfSatisfied S t A = .ok ((sat A t, n), t') ∧
      (sat A t = false → n = 0) := by
  obtain ⟨n, h0, h1⟩ := check_ok S t A hao hfresh
  exact ⟨n, _, h1, h0⟩

example : sat [b!"a", b!"c"] t1 = true ∧ AndOr t1 ∧ Fresh t1 := by
  refine ⟨by decide, ?_, ?_⟩
  · simp [t1, or2, and2, lf, AndOr, AndOrL]
  · simp [t1, or2, and2, lf, Fresh, FreshL, TNode.flags]

/-! ### C04 -/

/-- A sequence of `checkIfSatisfied` calls (with the default reset) on one policy object: the
answers and the tree afterwards. -/
def checkMany (S : StdSort) : TNode → List (List Bytes) → Res (List Bool × TNode)
  | t, [] => .ok ([], t)
  | t, A :: As => do
    let r ← checkIfSatisfied S t A
    let rest ← checkMany S r.2 As
    .ok (r.1.1 :: rest.1, rest.2)

/-- After any sequence of checks every further check and recovery behaves as on the fresh policy, and
each check of the sequence answered the formula. -/
theorem C04_check_leaves_no_trace (S : StdSort) (p : Policy) (t : TNode) (As : List (List Bytes))
    (hao : AndOr t) (hfresh : Fresh t) :
    ∃ t', checkMany S t As = .ok (As.map (fun A => sat A t), t') ∧
      (∀ A, checkIfSatisfied S t' A = checkIfSatisfied S t A) ∧
      (∀ (nd : Bool) (o : LSSS F) A,
        recoverCoefficients S nd o (some { p with root := some t' }) A =
        recoverCoefficients S nd o (some { p with root := some t }) A) := by
  have main : ∀ (As : List (List Bytes)) (u : TNode), AndOr u → Fresh u →
      ∃ t', checkMany S u As = .ok (As.map (fun A => sat A u), t') ∧ (t' = u ∨ t' = resetFlags u) := by
    intro As
    induction As with
    | nil => intro u _ _; exact ⟨u, rfl, .inl rfl⟩
    | cons A As ih =>
      intro u hu hf
      obtain ⟨n, -, h1⟩ := check_ok S u A hu hf
      obtain ⟨t', h2, h3⟩ := ih (resetFlags u) ((AndOr_reset u).2 hu) (resetFlags_fresh u)
      refine ⟨t', ?_, .inr ?_⟩
      · simp only [checkMany, h1, h2, Res.ok_bind, List.map_cons, sat_reset]
      · rcases h3 with h | h
        · exact h
        · rw [h, resetFlags_idem]
  obtain ⟨t', h1, h2⟩ := main As t hao hfresh
  refine ⟨t', h1, ?_, ?_⟩
  · intro A
    rcases h2 with rfl | rfl
    · rfl
    · exact check_reset S A t hao hfresh
  · intro nd o A
    rcases h2 with rfl | rfl
    · rfl
    · simp only [recoverCoefficients, scan_reset S A t hao hfresh]

example : AndOr t1 ∧ Fresh t1 ∧
    [[b!"a", b!"b"], [b!"b"]].map (fun A => sat A t1) = [true, false] := by
  refine ⟨?_, ?_, by decide⟩
  · simp [t1, or2, and2, lf, AndOr, AndOrL]
  · simp [t1, or2, and2, lf, Fresh, FreshL, TNode.flags]

/-! ### C05 -/

/-- A sequence of `recoverCoefficients` calls on one policy object: the answers. -/
def recoverMany (S : StdSort) : Policy → List (List Bytes) → Res (List Bool)
  | _, [] => .ok []
  | p, A :: As =>
    match recoverCoefficients S false ({} : LSSS F) (some p) A with
    | .ok (r, _, p') =>
      match recoverMany S p' As with
      | .ok rest => .ok (r :: rest)
      | .throw e => .throw e
      | .ub => .ub
      | .abort => .abort
    | .throw e => .throw e
    | .ub => .ub
    | .abort => .abort

theorem recover_stuck (S : StdSort) (A : List Bytes) (b : Bool) :
    ∀ (Bs : List (List Bytes)) (p : Policy) (fl : Flags) (ty : Gate) (thr : Nat) (subs : List TNode),
    p.root = some (.gate fl ty thr subs) → AndOr (.gate fl ty thr subs) →
    Solvable F (.gate fl ty thr subs) → (∀ l ∈ leaves (.gate fl ty thr subs), l.idx.isSome) →
    Good A (.gate fl ty thr subs) → Settled (.gate fl ty thr subs) → fl.mark = b →
    recoverMany (F := F) S p Bs = .ok (Bs.map fun _ => b)
  | [], _, _, _, _, _, _, _, _, _, _, _, _ => rfl
  | B :: Bs, p, fl, ty, thr, subs, hr, hao, hso, hidx, hg, hs, hb => by
    obtain ⟨fl', subs', h1, h2, h3, h4, h5⟩ := rescan S A B hao hg hs
    have hao' := h5.andOr.mpr hao
    have hso' : Solvable F (.gate fl' ty thr subs') := by
      rcases hso with h | h
      · exact .inl (h5.binAnd.mpr h)
      · exact .inr (fun k hk hle => h k hk (by rw [← h5.size]; exact hle))
    have hidx' : ∀ l ∈ leaves (.gate fl' ty thr subs'), l.idx.isSome := by
      rw [h5.leaves]; exact hidx
    have ih := recover_stuck S A b Bs { p with root := some (.gate fl' ty thr subs') } fl' ty thr subs'
      rfl hao' hso' hidx' h3 h4 (by rw [h2, hb])
    have hrec : ∃ o', recoverCoefficients S false ({} : LSSS F) (some p) B
        = .ok (b, o', { p with root := some (.gate fl' ty thr subs') }) := by
      cases b with
      | true =>
        have hm : (TNode.gate fl' ty thr subs').mark = true := by
          show fl'.mark = true; rw [h2, hb]
        have hl := recoverLoop_eq A _ hao' hso' h3 hm
          ((TNode.gate fl' ty thr subs').size - msize (.gate fl' ty thr subs')) [] (1 : F) false
          ({ results := [], attrCount := effCount ({} : LSSS F) p } : LSSS F)
        rw [Nat.add_sub_cancel' (msize_le _)] at hl
        rw [addAll_ok _ _ (idxOk_rec (fun l hl _ => hidx' l hl) 1 true)] at hl
        simp only [Res.ok_bind, recoverLoop] at hl
        refine ⟨{ results := SMap.addRows [] ((recRows (recFull (.gate fl' ty thr subs') (1 : F)
          true)).map (toRow (effCount ({} : LSSS F) p))), attrCount := effCount ({} : LSSS F) p }, ?_⟩
        unfold effCount at hl
        simp only [recoverCoefficients, hr, h1, Res.ok_bind, hm, if_true]
        rw [hl]
        rfl
      | false =>
        have hm : (TNode.gate fl' ty thr subs').mark = false := by
          show fl'.mark = false; rw [h2, hb]
        refine ⟨{ results := [], attrCount := effCount ({} : LSSS F) p }, ?_⟩
        simp only [recoverCoefficients, hr, h1, Res.ok_bind, hm]
        rfl
    obtain ⟨o', ho'⟩ := hrec
    simp only [recoverMany, ho', ih, List.map_cons]

/-- The code violates C05: on a policy whose root is a gate every later call repeats the answer of
the first call, whatever attributes it is given. In particular a caller with no attributes at all
is told that recovery succeeded. -/
theorem C05_later_calls_repeat_first_violated (S : StdSort) (p : Policy) (fl : Flags) (ty : Gate)
    (thr : Nat) (subs : List TNode) (A : List Bytes) (Bs : List (List Bytes))
    (hroot : p.root = some (.gate fl ty thr subs)) (hao : AndOr (.gate fl ty thr subs))
    (hbin : BinAnd (.gate fl ty thr subs)) (hfresh : Fresh (.gate fl ty thr subs))
    (hidx : ∀ l ∈ leaves (.gate fl ty thr subs), l.idx.isSome) :
    recoverMany (F := F) S p (A :: Bs) =
      .ok (sat A (.gate fl ty thr subs) :: Bs.map fun _ => sat A (.gate fl ty thr subs)) := by
  have hi : IdxOkT (effCount ({} : LSSS F) p) (.gate fl ty thr subs) := fun l hl _ => hidx l hl
  have hfirst : ∃ (o' : LSSS F) (t' : TNode), Scanned A (.gate fl ty thr subs) t' ∧
      recoverCoefficients S false ({} : LSSS F) (some p) A =
        .ok (sat A (.gate fl ty thr subs), o', { p with root := some t' }) := by
    cases hs : sat A (.gate fl ty thr subs) with
    | true =>
      obtain ⟨t', h2, h3⟩ := recover_sat S ({} : LSSS F) p _ A hroot hao hfresh (.inl hbin) hi hs
      exact ⟨_, t', h2, h3⟩
    | false =>
      obtain ⟨t', h2, h3⟩ := recover_unsat S ({} : LSSS F) p _ A hroot hao hfresh hs
      exact ⟨_, t', h2, h3⟩
  obtain ⟨o', t', h2, h3⟩ := hfirst
  cases t' with
  | leaf fl' pre lab idx => have := h2.same; simp [SameTree, resetFlags] at this
  | gate fl' ty' thr' subs' =>
    have hst := recover_stuck (F := F) S A (sat A (.gate fl ty thr subs)) Bs
      { p with root := some (.gate fl' ty' thr' subs') } fl' ty' thr' subs' rfl
      (h2.same.andOr.mpr hao) (.inl (h2.same.binAnd.mpr hbin))
      (by rw [h2.same.leaves]; exact hidx) h2.good h2.settled h2.mark
    simp only [recoverMany, h3, hst]

/-- `{a,b}` first, then nobody: the second answer should be `false` and is `true`. -/
example : recoverMany (F := ℚ) sort p1 [[b!"a", b!"b"], []] = .ok [true, true] ∧
    sat [] t1 = false := by
  refine ⟨?_, by decide⟩
  have h := C05_later_calls_repeat_first_violated (F := ℚ) sort p1 {} .or 0
    [and2 (lf b!"a" 0) (lf b!"b" 0), and2 (lf b!"a" 1) (lf b!"c" 0)] [b!"a", b!"b"] [[]] rfl
    (by simp [and2, lf, AndOr, AndOrL]) (by simp [and2, lf, BinAnd, BinAndL])
    (by simp [and2, lf, Fresh, FreshL, TNode.flags]) (by decide)
  rw [h]
  decide

/-- What remains true: with a single-attribute policy every call of a history answers the formula. -/
theorem C05_single_attribute_partial (S : StdSort) (p : Policy) (fl : Flags) (pre lab : Bytes)
    (i : Nat) (As : List (List Bytes)) (hroot : p.root = some (.leaf fl pre lab (some i))) :
    recoverMany (F := F) S p As = .ok (As.map fun A => sat A (.leaf fl pre lab (some i))) := by
  induction As generalizing p fl with
  | nil => rfl
  | cons A As ih =>
    have hi : IdxOkT (effCount ({} : LSSS F) p) (.leaf fl pre lab (some i)) := by
      intro l hl _; simp [leaves] at hl; simp [hl]
    have hfirst : ∃ (o' : LSSS F) (t' : TNode), Scanned A (.leaf fl pre lab (some i)) t' ∧
        recoverCoefficients S false ({} : LSSS F) (some p) A =
          .ok (sat A (.leaf fl pre lab (some i)), o', { p with root := some t' }) := by
      cases hs : sat A (.leaf fl pre lab (some i)) with
      | true =>
        obtain ⟨t', h2, h3⟩ := recover_sat S ({} : LSSS F) p _ A hroot trivial trivial
          (.inl trivial) hi hs
        exact ⟨_, t', h2, h3⟩
      | false =>
        obtain ⟨t', h2, h3⟩ := recover_unsat S ({} : LSSS F) p _ A hroot trivial trivial hs
        exact ⟨_, t', h2, h3⟩
    obtain ⟨o', t', h2, h3⟩ := hfirst
    cases t' with
    | gate fl' ty' thr' subs' => have := h2.same; simp [SameTree, resetFlags] at this
    | leaf fl' pre' lab' idx' =>
      have hsame := h2.same
      simp only [SameTree, resetFlags, TNode.leaf.injEq, true_and] at hsame
      obtain ⟨rfl, rfl, rfl⟩ := hsame
      have := ih { p with root := some (.leaf fl' pre' lab' (some i)) } fl' rfl
      simp only [recoverMany, h3, this, List.map_cons]
      simp [sat]

example : recoverMany (F := ℚ) sort { root := some (lf b!"a" 0) } [[b!"a"], [], [b!"a"]]
    = .ok [true, false, true] :=
  C05_single_attribute_partial sort _ {} [] b!"a" 0 _ rfl

/-! ### C06 -/

/-- The rows of a sharing that belong to attributes in `A`. -/
def viewOf (A : List Bytes) (rows : SMap (Bytes × F)) : SMap (Bytes × F) :=
  rows.filter fun r => decide (r.2.1 ∈ A)

/-- `shareSecret` with coefficients `tape` shows the holder of `A` the rows `v`. -/
def Shows (p : Policy) (A : List Bytes) (s : F) (tape : Nat → F) (v : SMap (Bytes × F)) : Prop :=
  ∃ (o : LSSS F) (n : Nat), shareSecret false {} (some p) s tape = .ok (o, n) ∧ viewOf A o.results = v

/-- A tape of `n` coefficients, continued with zeros. -/
def tapeOf {n : Nat} (f : Fin n → F) : Nat → F := fun i => if h : i < n then f ⟨i, h⟩ else 0

theorem view_addRows (A : List Bytes) (ac : SMap Nat) : ∀ (a b : List (Leaf × F)),
    List.Forall₂ (fun x y : Leaf × F => x.1 = y.1 ∧ (x.1.label ∈ A → x.2 = y.2)) a b →
    ∀ m m' : SMap (Bytes × F),
    List.Forall₂ (fun x y : Bytes × (Bytes × F) => x.1 = y.1 ∧ x.2.1 = y.2.1 ∧
      (x.2.1 ∈ A → x.2.2 = y.2.2)) m m' →
    List.Forall₂ (fun x y : Bytes × (Bytes × F) => x.1 = y.1 ∧ x.2.1 = y.2.1 ∧
      (x.2.1 ∈ A → x.2.2 = y.2.2)) (SMap.addRows m (a.map (toRow ac))) (SMap.addRows m' (b.map (toRow ac))) := by
  intro a b h
  induction h with
  | nil => intro m m' h; exact h
  | @cons x y a b hxy _ ih =>
    intro m m' hm
    simp only [List.map_cons]
    apply ih
    obtain ⟨x1, x2⟩ := x
    obtain ⟨y1, y2⟩ := y
    obtain ⟨he, hv⟩ := hxy
    simp only at he hv
    subst he
    simp only [toRow]
    induction hm with
    | nil => exact .cons ⟨rfl, rfl, hv⟩ .nil
    | @cons p q m m' hpq hmm ih' =>
      obtain ⟨k, l, w⟩ := p
      obtain ⟨k', l', w'⟩ := q
      obtain ⟨h1, h2, h3⟩ := hpq
      simp only at h1 h2 h3
      subst h1 h2
      simp only [SMap.insert]
      split
      · exact .cons ⟨rfl, rfl, hv⟩ (.cons ⟨rfl, rfl, h3⟩ hmm)
      · split
        · exact .cons ⟨rfl, rfl, hv⟩ hmm
        · exact .cons ⟨rfl, rfl, h3⟩ ih'

theorem view_eq (A : List Bytes) (m m' : SMap (Bytes × F))
    (h : List.Forall₂ (fun x y : Bytes × (Bytes × F) => x.1 = y.1 ∧ x.2.1 = y.2.1 ∧
      (x.2.1 ∈ A → x.2.2 = y.2.2)) m m') : viewOf A m = viewOf A m' := by
  induction h with
  | nil => rfl
  | @cons x y m m' hxy _ ih =>
    obtain ⟨h1, h2, h3⟩ := hxy
    unfold viewOf at ih ⊢
    by_cases hA : x.2.1 ∈ A
    · have hxy : x = y := Prod.ext h1 (Prod.ext h2 (h3 hA))
      subst hxy
      rw [List.filter_cons_of_pos (by simpa using hA), List.filter_cons_of_pos (by simpa using hA), ih]
    · rw [List.filter_cons_of_neg (by simpa using hA), List.filter_cons_of_neg (by simpa [← h2] using hA), ih]

theorem shift_view (p : Policy) (t : TNode) (A : List Bytes) (hroot : p.root = some t)
    (hpos : PosGates t) (hidx : ∀ l ∈ leaves t, l.idx.isSome) (s d : F) (tape δ : Nat → F)
    (hδ : ∀ q ∈ emit δ t d 0, q.1.label ∈ A → q.2 = 0) (v : SMap (Bytes × F)) :
    Shows p A (s + d) (fun i => tape i + δ i) v ↔ Shows p A s tape v := by
  have hi : IdxOkT (effCount ({} : LSSS F) p) t := fun l hl _ => hidx l hl
  have h1 := shareSecret_ok ({} : LSSS F) p t s tape hroot hpos hi
  have h2 := shareSecret_ok ({} : LSSS F) p t (s + d) (fun i => tape i + δ i) hroot hpos hi
  have hrel : List.Forall₂ (fun x y : Leaf × F => x.1 = y.1 ∧ (x.1.label ∈ A → x.2 = y.2))
      (emit (fun i => tape i + δ i) t (s + d) 0) (emit tape t s 0) := by
    rw [emit_add]
    have hf := (emit_fst tape t s 0).trans (emit_fst δ t d 0).symm
    revert hf hδ
    generalize emit tape t s 0 = a
    generalize emit δ t d 0 = b
    intro hδ hf
    induction a generalizing b with
    | nil => cases b <;> simp at hf ⊢
    | cons x a ih =>
      cases b with
      | nil => simp at hf
      | cons y b =>
        simp only [List.map_cons, List.cons.injEq] at hf
        simp only [List.zipWith_cons_cons]
        refine .cons ⟨rfl, fun hA => ?_⟩ (ih b (fun q hq => hδ q (by simp [hq])) hf.2)
        have := hδ y (by simp) (by rw [← hf.1]; exact hA)
        simp [this]
  have hview := view_eq A _ _ (view_addRows A (effCount ({} : LSSS F) p) _ _ hrel [] [] .nil)
  unfold Shows
  rw [h1, h2]
  constructor
  · rintro ⟨o, n, ho, hv⟩
    simp only [Res.ok.injEq, Prod.mk.injEq] at ho
    refine ⟨_, _, rfl, ?_⟩
    rw [← hv, ← ho.1]
    exact hview.symm
  · rintro ⟨o, n, ho, hv⟩
    simp only [Res.ok.injEq, Prod.mk.injEq] at ho
    refine ⟨_, _, rfl, ?_⟩
    rw [← hv, ← ho.1]
    exact hview

/-- Adding a fixed tape turns the views of one secret into the same views of another secret. -/
theorem views_shift (p : Policy) (t : TNode) (A : List Bytes)
    (hroot : p.root = some t) (hpos : PosGates t) (hidx : ∀ l ∈ leaves t, l.idx.isSome)
    (hchar : ∀ k, 0 < k → k ≤ t.size → (k : F) ≠ 0) (hunsat : sat A t = false)
    (n : Nat) (hn : ∀ s tape o k, shareSecret false {} (some p) s tape = .ok ((o : LSSS F), k) → k ≤ n)
    (s s' : F) :
    ∃ δn : Fin n → F, ∀ (f : Fin n → F) (w : SMap (Bytes × F)),
      Shows p A s' (tapeOf (f + δn)) w ↔ Shows p A s (tapeOf f) w := by
  have hi : IdxOkT (effCount ({} : LSSS F) p) t := fun l hl _ => hidx l hl
  obtain ⟨δ, hδ⟩ := emit_hide (F := F) A t hchar hpos hunsat (s' - s) 0
  have hdr : draws t ≤ n := hn s (fun _ => 0) _ _ (shareSecret_ok ({} : LSSS F) p t s _ hroot hpos hi)
  let δn : Fin n → F := fun i => δ i
  refine ⟨δn, ?_⟩
  intro f w
  have key := shift_view p t A hroot hpos hidx s (s' - s) (tapeOf f)
    (fun i => if i < n then δ i else 0) (by
      intro q hq
      apply hδ q
      rw [emit_congr t _ δ] at hq
      · exact hq
      · intro i _ hi; rw [if_pos (by omega)]) w
  have e1 : s + (s' - s) = s' := by ring
  have e2 : (fun i => tapeOf f i + if i < n then δ i else 0) = tapeOf (f + δn) := by
    funext i
    unfold tapeOf
    by_cases h : i < n <;> simp [h, δn]
  rw [e1, e2] at key
  exact key

/-- Perfect privacy: for an attribute set that does not satisfy the policy, every view is produced by
equally many choices of the random coefficients whatever the secret is. Gates may be AND, OR or
k-of-n; the field must have more elements (in characteristic) than the tree has nodes. `n` is any
number of coefficients that covers the draws made. -/
theorem C06_unsatisfying_views_hide_secret [Fintype F] (p : Policy) (t : TNode) (A : List Bytes)
    (hroot : p.root = some t) (hpos : PosGates t) (hidx : ∀ l ∈ leaves t, l.idx.isSome)
    (hchar : ∀ k, 0 < k → k ≤ t.size → (k : F) ≠ 0) (hunsat : sat A t = false)
    (n : Nat) (hn : ∀ s tape o k, shareSecret false {} (some p) s tape = .ok ((o : LSSS F), k) → k ≤ n)
    (s s' : F) (v : SMap (Bytes × F)) :
    Nat.card { f : Fin n → F // Shows p A s (tapeOf f) v } =
      Nat.card { f : Fin n → F // Shows p A s' (tapeOf f) v } := by
  obtain ⟨δn, htape⟩ := views_shift p t A hroot hpos hidx hchar hunsat n hn s s'
  refine Nat.card_congr (Equiv.subtypeEquiv (Equiv.addRight δn) ?_)
  intro f
  exact (htape f v).symm

/-- `(a and b) or (a and c)` hides the secret from `{b, c}` in the field with 11 elements; the
sharing makes 5 draws. -/
example : sat [b!"b", b!"c"] t1 = false ∧ PosGates t1 ∧ (∀ l ∈ leaves t1, l.idx.isSome) ∧
    (∀ k, 0 < k → k ≤ t1.size → (k : ZMod 11) ≠ 0) ∧
    (∀ (s : ZMod 11) tape o k, shareSecret false {} (some p1) s tape = .ok (o, k) → k ≤ 5) := by
  have hpos : PosGates t1 := by simp [t1, or2, and2, lf, PosGates, PosGatesL, thresholdValue]
  refine ⟨by decide, hpos, by decide, ?_, ?_⟩
  · intro k h0 h1
    have h7 : k ≤ 7 := h1
    interval_cases k <;> decide
  · intro s tape o k h
    have h' := shareSecret_ok ({} : LSSS (ZMod 11)) p1 t1 s tape rfl hpos (by
      intro l hl; simp [t1, or2, and2, lf, leaves, leavesL] at hl
      rcases hl with rfl | rfl | rfl | rfl <;> simp [IdxOk])
    rw [h'] at h
    simp only [Res.ok.injEq, Prod.mk.injEq] at h
    rw [← h.2]
    decide

/-! ### C07 (tree level; the parser side is in Verif/Props/Parser.lean) -/

/-- When no attribute is another one followed by `%` and a number and repeated attributes are numbered, there is exactly one row
per leaf and each leaf's row carries its attribute. -/
theorem C07_one_row_per_leaf_partial (p : Policy) (t : TNode) (s : F) (tape : Nat → F)
    (hroot : p.root = some t) (hpos : PosGates t) (hidx : ∀ l ∈ leaves t, l.idx.isSome)
    (hpct : NoNumbered (leaves t))
    (hnum : Numbered (if p.hasDup then p.dupCount else []) (leaves t)) :
    ∃ (o : LSSS F) (n : Nat), shareSecret false {} (some p) s tape = .ok (o, n) ∧
      o.results.length = (leaves t).length ∧
      ∀ l ∈ leaves t, ∃ v, SMap.find (uniqueLabel (if p.hasDup then p.dupCount else []) l) o.results
        = some (l.label, v) := by
  have hi : IdxOkT (effCount ({} : LSSS F) p) t := fun l hl _ => hidx l hl
  refine ⟨_, _, shareSecret_ok {} p t s tape hroot hpos hi, ?_, ?_⟩
  · have hn := uniqueLabel_nodup hpct hnum
    have hn' := ((rleaves_perm t).map (uniqueLabel (effCount ({} : LSSS F) p))).nodup_iff.mpr hn
    have := (SMap.perm_addRows ((emit tape t s 0).map (toRow (effCount ({} : LSSS F) p))) [] (by
      rw [fst_toRow, emit_fst]; simpa using hn')).length_eq
    simp only [List.append_nil, List.length_map] at this
    rw [this, ← (rleaves_perm t).length_eq, ← emit_fst tape t s 0, List.length_map]
  · intro l hl
    have hn := uniqueLabel_nodup hpct hnum
    have hn' := ((rleaves_perm t).map (uniqueLabel (effCount ({} : LSSS F) p))).nodup_iff.mpr hn
    have hl' : l ∈ (emit tape t s 0).map Prod.fst := by
      rw [emit_fst]; exact (rleaves_perm t).mem_iff.mpr hl
    obtain ⟨⟨l', v⟩, hv, he⟩ := List.mem_map.mp hl'
    simp only at he; subst he
    refine ⟨v, ?_⟩
    exact SMap.find_addRows_mem _ _ _ _ (by rw [fst_toRow, emit_fst]; exact hn')
      (List.mem_map.mpr ⟨(l', v), hv, rfl⟩)

example : PosGates t1 ∧ NoNumbered (leaves t1) ∧ Numbered p1.dupCount (leaves t1) := by
  refine ⟨?_, noNumbered_of_no37 (by decide), ?_⟩
  · simp [t1, or2, and2, lf, PosGates, PosGatesL, thresholdValue]
  · simp [Numbered, t1, or2, and2, lf, leaves, leavesL, Leaf.label, completeLabel, p1, SMap.find]

/-! ### C08 -/

/-- A reused object gives the same rows as a new one when the policy has repeated attributes, or
when no earlier policy given to the object had any. -/
theorem C08_reuse_share_partial (o : LSSS F) (p : Policy) (s : F) (tape : Nat → F) (nd : Bool)
    (h : p.hasDup = true ∨ o.attrCount = []) :
    shareSecret nd o (some p) s tape = shareSecret nd {} (some p) s tape := by
  rcases h with h | h <;> simp [shareSecret, h]

/-- The same for recovery. -/
theorem C08_reuse_recover_partial (S : StdSort) (o : LSSS F) (p : Policy) (A : List Bytes) (nd : Bool)
    (h : p.hasDup = true ∨ o.attrCount = []) :
    recoverCoefficients S nd o (some p) A = recoverCoefficients S nd {} (some p) A := by
  rcases h with h | h <;> simp [recoverCoefficients, h]

/-- An object that has only ever seen policies without repeated attributes stays reusable. -/
theorem C08_no_repeats_stays_clean_partial (o o' : LSSS F) (p : Policy) (t : TNode) (s : F)
    (tape : Nat → F) (n : Nat) (hroot : p.root = some t) (hpos : PosGates t)
    (hd : p.hasDup = false) (hc : o.attrCount = [])
    (h : shareSecret false o (some p) s tape = .ok (o', n)) : o'.attrCount = [] := by
  have e : effCount o p = [] := by simp [effCount, hd, hc]
  rw [shareSecret_ok o p t s tape hroot hpos (by rw [e]; exact idxOk_nil t)] at h
  simp only [Res.ok.injEq, Prod.mk.injEq] at h
  rw [← h.1, e]

/-- The code violates C08: after sharing under `a and a`, sharing under the policy `a` stores the
row under `a%0` instead of `a`. -/
theorem C08_reuse_violated (s s' : F) (tape tape' : Nat → F) :
    ∃ (p₁ p₂ : Policy) (o₁ o₂ fresh : LSSS F) (n₁ n₂ n₃ : Nat),
      shareSecret false {} (some p₁) s tape = .ok (o₁, n₁) ∧
      shareSecret false o₁ (some p₂) s' tape' = .ok (o₂, n₂) ∧
      shareSecret false {} (some p₂) s' tape' = .ok (fresh, n₃) ∧
      SMap.keys fresh.results = [b!"a"] ∧ SMap.keys o₂.results = [b!"a%0"] := by
  have h1 := shareSecret_ok ({} : LSSS F)
    { root := some (and2 (lf b!"a" 0) (lf b!"a" 1)), hasDup := true, dupCount := [(b!"a", 2)] } _ s tape rfl
    (by simp [and2, lf, PosGates, PosGatesL, thresholdValue])
    (by intro l hl; simp [and2, lf, leaves, leavesL] at hl; rcases hl with rfl | rfl <;> simp [IdxOk])
  have h2 := shareSecret_ok ({} : LSSS F) { root := some (lf b!"a" 0) } _ s' tape' rfl trivial
    (by intro l hl; simp [lf, leaves] at hl; subst hl; simp [IdxOk])
  refine ⟨_, _, _, _, _, _, _, _, h1, shareSecret_ok _ { root := some (lf b!"a" 0) } _ s' tape' rfl
    trivial (by intro l hl; simp [lf, leaves] at hl; subst hl; simp [IdxOk]), h2, ?_, ?_⟩
  · simp [lf, emit, toRow, uniqueLabel, Leaf.label, completeLabel, effCount, SMap.addRows, SMap.insert,
      SMap.find, SMap.keys]
  · simp only [lf, emit, toRow, uniqueLabel, Leaf.label, completeLabel, effCount, SMap.addRows,
      SMap.insert, SMap.find, SMap.keys, List.map_cons, List.map_nil]
    decide

example : p1.hasDup = true := rfl

/-! ### C09 -/

/-- Recovery is exact for AND gates with one or two inputs (any inputs, any position). -/
theorem C09_narrow_and_partial (S : StdSort) (p : Policy) (t : TNode) (A : List Bytes) (s : F)
    (tape : Nat → F) (hroot : p.root = some t) (hao : AndOr t) (hbin : BinAnd t) (hfresh : Fresh t)
    (hidx : IdxOkT (if p.hasDup then p.dupCount else []) t)
    (hlabels : ((leaves t).map (uniqueLabel (if p.hasDup then p.dupCount else []))).Nodup)
    (hsat : sat A t = true) (shares coeffs : LSSS F) (n : Nat) (p' : Policy)
    (hs : shareSecret false {} (some p) s tape = .ok (shares, n))
    (hr : recoverCoefficients S false {} (some p) A = .ok (true, coeffs, p')) :
    testSecretRecovery coeffs.results shares.results = s := by
  obtain ⟨sh, co, n', p'', h1, h2, h3⟩ :=
    C01_share_recover_inverse S p t A s tape hroot hao hbin hfresh hidx hlabels hsat
  rw [h1] at hs; rw [h2] at hr
  simp only [Res.ok.injEq, Prod.mk.injEq] at hs hr
  rw [← hs.1, ← hr.2.1]; exact h3

/-- The code violates C09 for three inputs, over every field of characteristic other than 2, 3
and 5 (in particular the group order used by the library): `a and b and c` as one gate, all three attributes
held, all random coefficients zero, and every non-zero secret is recovered wrongly (as 17/2 of it). -/
theorem C09_three_input_and_violated (S : StdSort) (s : F) (h2 : (2 : F) ≠ 0) (h15 : (15 : F) ≠ 0)
    (hs : s ≠ 0) :
    ∃ (shares coeffs : LSSS F) (n : Nat) (p' : Policy),
      let p : Policy := { root := some (.gate {} .and 0 [lf b!"a" 0, lf b!"b" 0, lf b!"c" 0]) }
      shareSecret false {} (some p) s (fun _ => 0) = .ok (shares, n) ∧
      recoverCoefficients S false {} (some p) [b!"a", b!"b", b!"c"] = .ok (true, coeffs, p') ∧
      testSecretRecovery coeffs.results shares.results ≠ s := by
  have hscan : ∀ A : List Bytes, A = [b!"a", b!"b", b!"c"] →
      scan S A (.gate {} .and 0 [lf b!"a" 0, lf b!"b" 0, lf b!"c" 0]) =
      .ok (.gate ⟨true, true, some 3⟩ .and 0 [.leaf ⟨true, true, some 1⟩ [] b!"a" (some 0),
        .leaf ⟨true, true, some 1⟩ [] b!"b" (some 0), .leaf ⟨true, true, some 1⟩ [] b!"c" (some 0)]) := by
    rintro A rfl; rfl
  let m (x : Bytes) : TNode := .leaf ⟨true, true, some 1⟩ [] x (some 0)
  have r3 : List.range 3 = [0, 1, 2] := rfl
  have d01 : (((0 + 1 : Nat) : F) - ((1 + 1 : Nat) : F)) = -1 := by push_cast; ring
  have d02 : (((0 + 1 : Nat) : F) - ((2 + 1 : Nat) : F)) = -2 := by push_cast; ring
  have d10 : (((1 + 1 : Nat) : F) - ((0 + 1 : Nat) : F)) = 1 := by push_cast; ring
  have d12 : (((1 + 1 : Nat) : F) - ((2 + 1 : Nat) : F)) = -1 := by push_cast; ring
  have d20 : (((2 + 1 : Nat) : F) - ((0 + 1 : Nat) : F)) = 2 := by push_cast; ring
  have d21 : (((2 + 1 : Nat) : F) - ((1 + 1 : Nat) : F)) = 1 := by push_cast; ring
  have hn2 : (-2 : F) ≠ 0 := by simpa using h2
  have hn1 : (-1 : F) ≠ 0 := by simp
  have c0 : (calculateCoefficient [m b!"a", m b!"b", m b!"c"] 0 3 : Res F) = .ok 6 := by
    simp only [calculateCoefficient, List.length_cons, List.length_nil, r3, coeffLoop, markAt, m,
      List.getElem?_cons_zero, List.getElem?_cons_succ, TNode.mark, TNode.flags]
    simp only [d01, d02, hn1, hn2, if_false]
    norm_num
    field_simp
    norm_num
  have c1 : (calculateCoefficient [m b!"a", m b!"b", m b!"c"] 1 3 : Res F) = .ok 3 := by
    simp only [calculateCoefficient, List.length_cons, List.length_nil, r3, coeffLoop, markAt, m,
      List.getElem?_cons_zero, List.getElem?_cons_succ, TNode.mark, TNode.flags]
    simp only [d10, d12, hn1, if_false]
    norm_num
  have c2 : (calculateCoefficient [m b!"a", m b!"b", m b!"c"] 2 3 : Res F) = .ok (-1 / 2) := by
    simp only [calculateCoefficient, List.length_cons, List.length_nil, r3, coeffLoop, markAt, m,
      List.getElem?_cons_zero, List.getElem?_cons_succ, TNode.mark, TNode.flags]
    simp only [d20, d21, h2, if_false]
    norm_num
    field_simp
  refine ⟨{ results := [(b!"a", b!"a", s), (b!"b", b!"b", s), (b!"c", b!"c", s)] },
    { results := [(b!"a", b!"a", 6), (b!"b", b!"b", 3), (b!"c", b!"c", -1 / 2)] }, 3,
    { root := some (.gate ⟨true, true, some 3⟩ .and 0 [m b!"a", m b!"b", m b!"c"]) }, ?_, ?_, ?_⟩
  · rw [shareSecret_ok _ _ _ s _ rfl (by simp [lf, PosGates, PosGatesL, thresholdValue])
      (by simp only [effCount]; exact idxOk_nil _)]
    simp [lf, emit, emitL, draws, drawsL, drawCoeffs, thresholdValue, r3, evaluatePolynomial, evalLoop, toRow,
      uniqueLabel, Leaf.label, completeLabel, effCount, SMap.addRows, SMap.insert, SMap.find, blt]
  · simp only [recoverCoefficients, hscan _ rfl, Res.ok_bind]
    show (do
      let x ← recoverLoop 4 [(TNode.gate ⟨true, true, some 3⟩ .and 0 [m b!"a", m b!"b", m b!"c"], (1 : F))]
        false { results := [], attrCount := [] }
      _) = _
    simp only [recoverLoop, recoverThreshold, List.length_cons, List.length_nil, Nat.zero_add,
      List.zipIdx_cons, List.zipIdx_nil, childCoeffs]
    have mm : ∀ x, (m x).mark = true := fun _ => rfl
    simp only [mm, if_true, c0, c1, c2, Res.ok_bind, one_mul, List.reverse_cons, List.reverse_nil,
      List.nil_append, List.singleton_append, List.cons_append, List.append_nil]
    simp [m, recoverLoop, addShare, makeUniqueLabel, completeLabel, SMap.find, SMap.insert, blt]
  · simp [testSecretRecovery, SMap.find]
    intro h
    have h2' : (2 : F) * (2 : F)⁻¹ = 1 := mul_inv_cancel₀ h2
    have e : (15 : F) * s = 0 := by
      linear_combination 2 * h + s * h2'
    rcases mul_eq_zero.mp e with h | h
    · exact h15 h
    · exact hs h

example : (2 : ℚ) ≠ 0 ∧ (15 : ℚ) ≠ 0 ∧ (1 : ℚ) ≠ 0 := by norm_num

/-! ### C10 -/

/-- More attributes never hurt: satisfaction is monotone, and the larger set still recovers the
secret. -/
theorem C10_access_is_monotone (S : StdSort) (p : Policy) (t : TNode) (A B : List Bytes) (s : F)
    (tape : Nat → F) (hroot : p.root = some t) (hao : AndOr t) (hbin : BinAnd t) (hfresh : Fresh t)
    (hidx : IdxOkT (if p.hasDup then p.dupCount else []) t)
    (hlabels : ((leaves t).map (uniqueLabel (if p.hasDup then p.dupCount else []))).Nodup)
    (hAB : ∀ a ∈ A, a ∈ B)
    (hA : ∃ coeffs p', recoverCoefficients S false ({} : LSSS F) (some p) A = .ok (true, coeffs, p')) :
    ∃ (shares coeffs : LSSS F) (n : Nat) (p' : Policy),
      shareSecret false {} (some p) s tape = .ok (shares, n) ∧
      recoverCoefficients S false {} (some p) B = .ok (true, coeffs, p') ∧
      testSecretRecovery coeffs.results shares.results = s := by
  apply C01_share_recover_inverse S p t B s tape hroot hao hbin hfresh hidx hlabels
  apply sat_mono hAB
  cases hs : sat A t with
  | true => rfl
  | false =>
    obtain ⟨t', -, h3⟩ := recover_unsat S ({} : LSSS F) p t A hroot hao hfresh hs
    obtain ⟨c, p', h⟩ := hA
    rw [h3] at h
    simp at h

/-- The Boolean reading itself is monotone for every gate type. -/
theorem C10_formula_monotone (t : TNode) (A B : List Bytes) (hAB : ∀ a ∈ A, a ∈ B)
    (h : sat A t = true) : sat B t = true := sat_mono hAB t h

example : sat [b!"a", b!"b"] t1 = true ∧ (∀ a ∈ [b!"a", b!"b"], a ∈ [b!"x", b!"b", b!"a"]) := by decide

/-! ### C11 -/

/-- Every recovered row belongs to a leaf of the policy and to an attribute the caller supplied. -/
theorem C11_only_held_attributes (S : StdSort) (o o' : LSSS F) (p p' : Policy) (t : TNode)
    (A : List Bytes) (b : Bool) (hroot : p.root = some t) (hao : AndOr t) (hfresh : Fresh t)
    (hsolve : BinAnd t ∨ ∀ k, 0 < k → k ≤ t.size → (k : F) ≠ 0)
    (hidx : ∀ l ∈ leaves t, l.idx.isSome)
    (h : recoverCoefficients S false o (some p) A = .ok (b, o', p')) :
    ∀ row ∈ o'.results, row.2.1 ∈ A ∧ row.2.1 ∈ (leaves t).map Leaf.label := by
  have hi : IdxOkT (effCount o p) t := fun l hl _ => hidx l hl
  cases hs : sat A t with
  | true =>
    obtain ⟨t', h2, h3⟩ := recover_sat S o p t A hroot hao hfresh hsolve hi hs
    rw [h3] at h
    simp only [Res.ok.injEq, Prod.mk.injEq] at h
    rw [← h.2.1]
    intro row hrow
    rcases SMap.mem_addRows _ _ _ hrow with hm | hm
    · obtain ⟨q, hq, rfl⟩ := List.mem_map.mp hm
      refine ⟨recFull_rows_held A t' h2.good (by rw [h2.mark, hs]) _ q hq, ?_⟩
      apply List.mem_map.mpr
      refine ⟨q.1, ?_, rfl⟩
      rw [← h2.same.leaves, ← (rleaves_perm t').mem_iff, ← recFull_fst t' (1 : F) true]
      exact (recRows_keys_sublist _).subset (List.mem_map.mpr ⟨q, hq, rfl⟩)
    · simp at hm
  | false =>
    obtain ⟨t', h2, h3⟩ := recover_unsat S o p t A hroot hao hfresh hs
    rw [h3] at h
    simp only [Res.ok.injEq, Prod.mk.injEq] at h
    rw [← h.2.1]
    simp

example : AndOr t1 ∧ Fresh t1 ∧ BinAnd t1 ∧ sat [b!"a", b!"b", b!"x"] t1 = true := by
  refine ⟨?_, ?_, ?_, by decide⟩
  · simp [t1, or2, and2, lf, AndOr, AndOrL]
  · simp [t1, or2, and2, lf, Fresh, FreshL, TNode.flags]
  · simp [t1, or2, and2, lf, BinAnd, BinAndL]

/-! ### C12 -/

/-- Copying or assigning never changes which attribute sets satisfy the policy. -/
theorem C12_copy_same_formula (p q : Policy) (t : TNode) (A : List Bytes) (hroot : p.root = some t) :
    (∃ u, p.copy.root = some u ∧ sat A u = sat A t ∧ Fresh u) ∧
    (∃ q' u, Policy.assign q p = .ok q' ∧ q'.root = some u ∧ sat A u = sat A t ∧ Fresh u) := by
  refine ⟨⟨copyTree t, by simp [Policy.copy, hroot], sat_copy A t, copyTree_fresh t⟩,
    ⟨{ q with root := some (copyTree t) }, copyTree t, by simp [Policy.assign, hroot], rfl,
      sat_copy A t, copyTree_fresh t⟩⟩

/-- Without repeated attributes a copied or assigned policy shares every secret exactly like the
original. -/
theorem C12_copy_shares_alike_partial (p q : Policy) (t : TNode) (s : F) (tape : Nat → F)
    (hroot : p.root = some t) (hpos : PosGates t) (hp : p.hasDup = false) (hq : q.hasDup = false) :
    shareSecret false {} (some p.copy) s tape = shareSecret false ({} : LSSS F) (some p) s tape ∧
    ∃ q', Policy.assign q p = .ok q' ∧
      shareSecret false {} (some q') s tape = shareSecret false ({} : LSSS F) (some p) s tape := by
  have key : ∀ r : Policy, r.root = some (copyTree t) → r.hasDup = false →
      shareSecret false {} (some r) s tape = shareSecret false ({} : LSSS F) (some p) s tape := by
    intro r hr hd
    have e1 : effCount ({} : LSSS F) r = [] := by simp [effCount, hd]
    have e2 : effCount ({} : LSSS F) p = [] := by simp [effCount, hp]
    rw [shareSecret_ok {} r (copyTree t) s tape hr ((PosGates_copy t).2 hpos)
        (by rw [e1]; exact idxOk_nil _),
      shareSecret_ok {} p t s tape hroot hpos (by rw [e2]; exact idxOk_nil _), e1, e2,
      (emit_copy tape t).1, (emit_copy tape t).2, List.map_map]
    congr 3
  refine ⟨key _ (by simp [Policy.copy, hroot]) (by simp [Policy.copy, hp]), 
    { q with root := some (copyTree t) }, by simp [Policy.assign, hroot], key _ rfl (by simpa using hq)⟩

/-- The code violates C12 for repeated attributes: a copy of `a and a` reads an uninitialised index
when a secret is shared, and an assigned policy puts both shares under one label. -/
theorem C12_copy_repeats_violated (s : F) (tape : Nat → F) :
    let p : Policy := { root := some (and2 (lf b!"a" 0) (lf b!"a" 1)), hasDup := true,
                        dupCount := [(b!"a", 2)] }
    (∃ o n, shareSecret false ({} : LSSS F) (some p) s tape = .ok (o, n) ∧
      SMap.keys o.results = [b!"a%0", b!"a%1"]) ∧
    shareSecret false ({} : LSSS F) (some p.copy) s tape = .ub ∧
    (∃ q' o n, Policy.assign {} p = .ok q' ∧
      shareSecret false ({} : LSSS F) (some q') s tape = .ok (o, n) ∧
      SMap.keys o.results = [b!"a"]) := by
  refine ⟨⟨_, _, shareSecret_ok _ _ _ s tape rfl
      (by simp [and2, lf, PosGates, PosGatesL, thresholdValue])
      (by intro l hl; simp [and2, lf, leaves, leavesL] at hl; rcases hl with rfl | rfl <;> simp [IdxOk]), ?_⟩,
    ?_, ⟨_, _, _, rfl, shareSecret_ok _ _ _ s tape rfl
      (by simp [and2, lf, copyTree, copyTreeL, PosGates, PosGatesL, thresholdValue])
      (by simp only [effCount]; exact idxOk_nil _), ?_⟩⟩
  · simp only [and2, lf, emit, emitL, toRow, uniqueLabel, Leaf.label, completeLabel, effCount, SMap.addRows,
      SMap.find, List.map_cons, List.map_nil, List.nil_append, List.cons_append, if_true, ne_eq,
      not_true_eq_false, if_false, Option.isSome_some, Option.getD_some]
    have e0 : (97 :: 37 :: natDec 0 : Bytes) = b!"a%0" := by decide
    have e1 : (97 :: 37 :: natDec 1 : Bytes) = b!"a%1" := by decide
    rw [e0, e1]
    simp [SMap.insert, SMap.keys, blt]
  · rfl
  · simp [and2, lf, copyTree, copyTreeL, emit, emitL, toRow, uniqueLabel, Leaf.label, completeLabel,
      effCount, SMap.addRows, SMap.insert, SMap.find, SMap.keys, blt]

example : PosGates (and2 (lf b!"a" 0) (lf b!"b" 0)) ∧
    ({ root := some (and2 (lf b!"a" 0) (lf b!"b" 0)) } : Policy).hasDup = false := by
  refine ⟨by simp [and2, lf, PosGates, PosGatesL, thresholdValue], rfl⟩

/-! ### C72 -/

/-- With assertions compiled out, sharing under a single attribute works as before. -/
theorem C72_single_attribute_partial (o : LSSS F) (p : Policy) (fl : Flags) (pre lab : Bytes)
    (idx : Option Nat) (s : F) (tape : Nat → F) (hroot : p.root = some (.leaf fl pre lab idx)) :
    shareSecret true o (some p) s tape = shareSecret false o (some p) s tape := by
  simp only [shareSecret, hroot, TNode.size, shareLoop]

/-- The code violates C72: with NDEBUG every policy with a gate at the root has undefined behaviour,
while the checked build shares the secret. -/
theorem C72_release_build_violated (o : LSSS F) (p : Policy) (fl : Flags) (ty : Gate) (thr : Nat)
    (subs : List TNode) (s : F) (tape : Nat → F) (hroot : p.root = some (.gate fl ty thr subs))
    (hpos : PosGates (.gate fl ty thr subs))
    (hidx : ∀ l ∈ leaves (.gate fl ty thr subs), l.idx.isSome) :
    shareSecret true o (some p) s tape = .ub ∧
    ∃ r, shareSecret false o (some p) s tape = .ok r := by
  refine ⟨?_, _, shareSecret_ok o p _ s tape hroot hpos fun l hl _ => hidx l hl⟩
  have e : (TNode.gate fl ty thr subs).size = sizeL subs + 1 := by simp only [TNode.size]; omega
  simp only [shareSecret, hroot, e, shareLoop, if_true]

example : p1.root = some (.gate {} .or 0 [and2 (lf b!"a" 0) (lf b!"b" 0), and2 (lf b!"a" 1) (lf b!"c" 0)]) ∧
    PosGates t1 := by
  refine ⟨rfl, by simp [t1, or2, and2, lf, PosGates, PosGatesL, thresholdValue]⟩

end Abe
