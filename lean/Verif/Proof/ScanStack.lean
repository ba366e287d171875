import Verif.Model.ScanStack
import Verif.Proof.Scan
/-! The stack of `iterativeScanTree` computes the recursive `scan`. -/
set_option linter.unusedSimpArgs false
set_option autoImplicit false
namespace Abe

/-! ### Positions -/

theorem at?_append : ∀ (p q : List Nat) (t : TNode), t.at? (p ++ q) = (t.at? p).bind (·.at? q)
  | [], q, t => by cases t <;> simp [TNode.at?]
  | i :: p, q, .leaf _ _ _ _ => by simp [TNode.at?]
  | i :: p, q, .gate _ _ _ subs => by
    simp only [List.cons_append, TNode.at?]
    cases subs[i]? with
    | none => simp
    | some c => simp [at?_append p q c]

theorem putAt_at? : ∀ (p : List Nat) (t u v : TNode), t.at? p = some u → (t.putAt p v).at? p = some v
  | [], t, u, v, _ => by cases t <;> simp [TNode.at?, TNode.putAt]
  | i :: p, .leaf _ _ _ _, u, v, h => by simp [TNode.at?] at h
  | i :: p, .gate _ _ _ subs, u, v, h => by
    simp only [TNode.at?, TNode.putAt] at h ⊢
    rw [List.getElem?_modify_eq]
    cases hc : subs[i]? with
    | none => simp [hc] at h
    | some c => simp only [hc] at h; simpa using putAt_at? p c u v h

theorem putAt_putAt : ∀ (p : List Nat) (t v w : TNode), (t.putAt p v).putAt p w = t.putAt p w
  | [], t, v, w => by cases t <;> cases v <;> simp [TNode.putAt]
  | i :: p, .leaf _ _ _ _, v, w => by simp [TNode.putAt]
  | i :: p, .gate _ _ _ subs, v, w => by
    simp only [TNode.putAt, TNode.gate.injEq, true_and]
    rw [List.modify_modify_eq]
    congr 1
    funext c
    exact putAt_putAt p c v w

theorem putAt_append : ∀ (p q : List Nat) (t u v : TNode), t.at? p = some u →
    t.putAt (p ++ q) v = t.putAt p (u.putAt q v)
  | [], q, t, u, v, h => by
    have : t = u := by cases t <;> simpa [TNode.at?] using h
    subst this
    cases t <;> simp [TNode.putAt]
  | i :: p, q, .leaf _ _ _ _, u, v, h => by simp [TNode.at?] at h
  | i :: p, q, .gate fl ty thr subs, u, v, h => by
    simp only [TNode.at?, List.cons_append, TNode.putAt, TNode.gate.injEq, true_and] at h ⊢
    cases hc : subs[i]? with
    | none => simp [hc] at h
    | some c =>
      simp only [hc] at h
      have ih := putAt_append p q c u v h
      apply List.ext_getElem?
      intro j
      simp only [List.getElem?_modify]
      by_cases hj : i = j
      · subst hj; simp [hc, ih]
      · simp [hj]

theorem putAt_self : ∀ (p : List Nat) (t u : TNode), t.at? p = some u → t.putAt p u = t
  | [], t, u, h => by
    have : t = u := by cases t <;> simpa [TNode.at?] using h
    subst this
    cases t <;> simp [TNode.putAt]
  | i :: p, .leaf _ _ _ _, u, h => by simp [TNode.at?] at h
  | i :: p, .gate fl ty thr subs, u, h => by
    simp only [TNode.at?, TNode.putAt, TNode.gate.injEq, true_and] at h ⊢
    cases hc : subs[i]? with
    | none => simp [hc] at h
    | some c =>
      simp only [hc] at h
      have ih := putAt_self p c u h
      apply List.ext_getElem?
      intro j
      simp only [List.getElem?_modify]
      by_cases hj : i = j
      · subst hj; simp [hc, ih]
      · simp [hj]

theorem modify_mid {α : Type} (f : α → α) (c : α) (r : List α) : ∀ l : List α,
    (l ++ c :: r).modify l.length f = l ++ f c :: r
  | [] => by simp
  | a :: l => by simpa using modify_mid f c r l

/-! ### The number of iterations -/

mutual
/-- Iterations spent on a node: a leaf takes one, a gate one, or two when it first has to wait for
children. -/
def scanCost : TNode → Nat
  | .leaf _ _ _ _ => 1
  | .gate _ _ _ subs => if subs.all (fun c => c.flags.visited) then 1 else costL subs + 2
/-- for the children not visited yet -/
def costL : List TNode → Nat
  | [] => 0
  | c :: cs => costL cs + if c.flags.visited then 0 else scanCost c
end

mutual
theorem scanCost_le : ∀ t : TNode, scanCost t ≤ 2 * t.size
  | .leaf _ _ _ _ => by simp [scanCost, TNode.size]
  | .gate _ _ _ subs => by
    have := costL_le subs
    simp only [scanCost, TNode.size]
    split <;> omega
theorem costL_le : ∀ ts : List TNode, costL ts ≤ 2 * sizeL ts
  | [] => by simp [costL]
  | c :: cs => by
    have h1 := scanCost_le c
    have h2 := costL_le cs
    simp only [costL, sizeL]
    split <;> omega
end

/-! ### Running the loop -/

/-- Go on with the value, or stop with the other outcomes. -/
def after {α : Type} (r : Res α) (k : α → Option (Res ScanState)) : Option (Res ScanState) :=
  match r with
  | .ok a => k a
  | .throw e => some (.throw e)
  | .ub => some .ub
  | .abort => some .abort

theorem after_bind {α β : Type} (r : Res α) (f : α → Res β) (k : β → Option (Res ScanState)) :
    after (r >>= f) k = after r (fun a => after (f a) k) := by
  cases r <;> rfl

theorem after_ok {α : Type} (a : α) (k : α → Option (Res ScanState)) :
    after (.ok a) k = k a := rfl

theorem after_ext {α : Type} (r : Res α) (k k' : α → Option (Res ScanState))
    (h : ∀ a, r = .ok a → k a = k' a) : after r k = after r k' := by
  cases r <;> simp [after] at h ⊢
  exact h

theorem scanLoop_succ (S : StdSort) (A : List Bytes) (n : Nat) (t : TNode) (p : List Nat)
    (stk : List (List Nat)) (old : Option Nat) :
    scanLoop S A (n + 1) ⟨t, p :: stk, old⟩ = after (scanStep S A t p stk old) (scanLoop S A n) := by
  rw [scanLoop]; cases scanStep S A t p stk old <;> rfl

theorem pending_nil_iff (p : List Nat) : ∀ (subs : List TNode) (i : Nat),
    pending p subs i = [] ↔ subs.all (fun c => c.flags.visited) = true
  | [], i => by simp [pending]
  | c :: cs, i => by
    have ih := pending_nil_iff p cs (i + 1)
    cases hv : c.flags.visited <;> simp [pending, hv]
    simpa using ih

theorem determine_gate (S : StdSort) {fl : Flags} {ty : Gate} {thr : Nat} {subs : List TNode}
    {u : TNode} : determine S fl ty thr subs = .ok u → ∃ fl' subs', u = .gate fl' ty thr subs' := by
  intro h
  cases ty
  · simp only [determine] at h
    obtain ⟨⟨r, s⟩, _, h⟩ := (Res.bind_eq_ok _ _ _).mp h
    simp only at h
    split at h <;> simp at h <;> exact ⟨_, _, h.symm⟩
  · simp only [determine] at h
    split at h
    · split at h
      · simp at h; exact ⟨_, _, h.symm⟩
      · simp at h
    · simp at h; exact ⟨_, _, h.symm⟩
  · simp [determine] at h; exact ⟨_, _, h.symm⟩
  · simp [determine] at h; exact ⟨_, _, h.symm⟩

theorem scan_sets_visited (S : StdSort) (A : List Bytes) : ∀ {t u : TNode},
    scan S A t = .ok u → u.flags.visited = true
  | .leaf _ _ _ _, u, h => by simp [scan] at h; subst h; rfl
  | .gate _ _ _ _, u, h => by
    simp only [scan] at h
    obtain ⟨_, _, h⟩ := (Res.bind_eq_ok _ _ _).mp h
    obtain ⟨v, _, h⟩ := (Res.bind_eq_ok _ _ _).mp h
    simp at h; subst h; exact setVisited_visited v

theorem scanL_sets_visited (S : StdSort) (A : List Bytes) : ∀ {ts us : List TNode},
    scanL S A ts = .ok us → us.all (fun c => c.flags.visited) = true
  | [], us, h => by simp [scanL] at h; subst h; rfl
  | c :: cs, us, h => by
    simp only [scanL] at h
    obtain ⟨cs', h1, h⟩ := (Res.bind_eq_ok _ _ _).mp h
    have ih := scanL_sets_visited S A h1
    split at h
    · simp at h; subst h; simp_all
    · obtain ⟨c', h2, h⟩ := (Res.bind_eq_ok _ _ _).mp h
      simp at h; subst h
      simp only [List.all_cons, scan_sets_visited S A h2, Bool.true_and]; exact ih

theorem andOr_threshold {fl : Flags} {ty : Gate} {thr : Nat} {subs : List TNode}
    (h : AndOr (.gate fl ty thr subs)) (old : Option Nat) :
    ∃ k, ∀ fl' subs', subs'.length = subs.length →
      scanThreshold old (.gate fl' ty thr subs') = some k := by
  rcases h.1 with rfl | rfl
  · exact ⟨subs.length, fun _ _ h => by simp [scanThreshold, h]⟩
  · exact ⟨1, fun _ _ _ => rfl⟩

theorem scanL_length (S : StdSort) (A : List Bytes) : ∀ {ts us : List TNode},
    scanL S A ts = .ok us → us.length = ts.length
  | [], us, h => by simp [scanL] at h; subst h; rfl
  | c :: cs, us, h => by
    simp only [scanL] at h
    obtain ⟨cs', h1, h⟩ := (Res.bind_eq_ok _ _ _).mp h
    have ih := scanL_length S A h1
    split at h
    · simp at h; subst h; simp [ih]
    · obtain ⟨c', h2, h⟩ := (Res.bind_eq_ok _ _ _).mp h
      simp at h; subst h
      simp [ih]

/-- The last iteration on a gate: all children are visited. -/
theorem scanLoop_mark (S : StdSort) (A : List Bytes) {root : TNode} {p : List Nat} {fl : Flags}
    {ty : Gate} {thr : Nat} {subs : List TNode} (hp : root.at? p = some (.gate fl ty thr subs))
    (hv : subs.all (fun c => c.flags.visited) = true) (n : Nat) (stk : List (List Nat))
    (old : Option Nat) (k : Nat) (hk : scanThreshold old (.gate fl ty thr subs) = some k) :
    scanLoop S A (n + 1) ⟨root, p :: stk, old⟩ =
      after (determine S fl ty thr subs) (fun u => scanLoop S A n ⟨root.putAt p (setVisited u), stk, some k⟩) := by
  rw [scanLoop_succ]
  have hpend : pending p subs 0 = [] := (pending_nil_iff p subs 0).mpr hv
  simp only [scanStep, hp, hpend, if_true, hk]
  rw [after_bind]
  rfl

mutual
/-- The loop with a node on top of the stack scans that node and goes on with the rest. -/
theorem scanLoop_node (S : StdSort) (A : List Bytes) : ∀ (u root : TNode) (p : List Nat),
    root.at? p = some u → AndOr u → ∀ (n : Nat) (stk : List (List Nat)) (old : Option Nat),
    ∃ old', scanLoop S A (scanCost u + n) ⟨root, p :: stk, old⟩ =
      after (scan S A u) (fun u' => scanLoop S A n ⟨root.putAt p u', stk, old'⟩)
  | .leaf fl pre lab idx, root, p, hp, _, n, stk, old => by
    refine ⟨old, ?_⟩
    rw [show scanCost (.leaf fl pre lab idx) + n = n + 1 by simp [scanCost]; omega, scanLoop_succ]
    simp only [scanStep, hp, scan]
    rfl
  | .gate fl ty thr subs, root, p, hp, hao, n, stk, old => by
    obtain ⟨k, hk⟩ := andOr_threshold hao old
    by_cases hv : subs.all (fun c => c.flags.visited) = true
    · refine ⟨some k, ?_⟩
      rw [show scanCost (.gate fl ty thr subs) + n = n + 1 by simp only [scanCost, hv, if_true]; omega,
        scanLoop_mark S A hp hv n stk old k (hk fl subs rfl)]
      have h1 := scanL_visited S A subs (by simpa using hv)
      simp only [scan, h1, Res.ok_bind]
      rw [after_bind]; rfl
    · have hpend : ¬ pending p subs 0 = [] := fun h => hv ((pending_nil_iff p subs 0).mp h)
      have hc : scanCost (.gate fl ty thr subs) + n = (costL subs + (n + 1)) + 1 := by
        simp only [scanCost, if_neg hv]; omega
      obtain ⟨old', hkids⟩ := scanLoop_kids S A subs [] root p fl ty thr (by simpa using hp) hao.2.2
        (n + 1) (p :: stk) (some k)
      obtain ⟨k', hk'⟩ := andOr_threshold hao old'
      refine ⟨some k', ?_⟩
      rw [hc, scanLoop_succ]
      simp only [scanStep, hp, if_neg hpend, hk fl subs rfl]
      simp only [after_ok]
      rw [show (pending p subs 0) = pending p subs ([] : List TNode).length from rfl, hkids]
      simp only [scan]
      rw [after_bind]
      apply after_ext
      intro cs' hcs'
      have hat : (root.putAt p (.gate fl ty thr cs')).at? p = some (.gate fl ty thr cs') :=
        putAt_at? p root _ _ hp
      rw [List.nil_append, scanLoop_mark S A hat (scanL_sets_visited S A hcs') n stk old' k'
        (hk' fl cs' (scanL_length S A hcs')), after_bind]
      apply after_ext
      intro v _
      rw [putAt_putAt]; rfl
/-- The same for the children of a gate, which sit on the stack above the rest. -/
theorem scanLoop_kids (S : StdSort) (A : List Bytes) : ∀ (cs pre : List TNode) (root : TNode)
    (p : List Nat) (fl : Flags) (ty : Gate) (thr : Nat),
    root.at? p = some (.gate fl ty thr (pre ++ cs)) → AndOrL cs →
    ∀ (n : Nat) (rest : List (List Nat)) (old : Option Nat),
    ∃ old', scanLoop S A (costL cs + n) ⟨root, (pending p cs pre.length).reverse ++ rest, old⟩ =
      after (scanL S A cs) (fun cs' =>
        scanLoop S A n ⟨root.putAt p (.gate fl ty thr (pre ++ cs')), rest, old'⟩)
  | [], pre, root, p, fl, ty, thr, hp, _, n, rest, old => by
    refine ⟨old, ?_⟩
    simp only [costL, Nat.zero_add, pending, List.reverse_nil, List.nil_append, scanL, after]
    rw [putAt_self p root _ hp]
  | c :: cs, pre, root, p, fl, ty, thr, hp, hao, n, rest, old => by
    have hp' : root.at? p = some (.gate fl ty thr ((pre ++ [c]) ++ cs)) := by simpa using hp
    cases hv : c.flags.visited with
    | true =>
      obtain ⟨old', ih⟩ := scanLoop_kids S A cs (pre ++ [c]) root p fl ty thr hp' hao.2 n rest old
      refine ⟨old', ?_⟩
      simp only [costL, hv, if_true, Nat.add_zero, pending, scanL]
      rw [show pre.length + 1 = (pre ++ [c]).length by simp, ih, after_bind]
      apply after_ext
      intro cs' _
      simp [after]
    | false =>
      obtain ⟨old1, ih⟩ := scanLoop_kids S A cs (pre ++ [c]) root p fl ty thr hp' hao.2
        (scanCost c + n) ((p ++ [pre.length]) :: rest) old
      cases hcs : scanL S A cs with
      | ok cs' =>
        have hroot : (root.putAt p (.gate fl ty thr ((pre ++ [c]) ++ cs'))).at? p =
          some (.gate fl ty thr ((pre ++ [c]) ++ cs')) := putAt_at? p root _ _ hp
        have hat : (root.putAt p (.gate fl ty thr ((pre ++ [c]) ++ cs'))).at? (p ++ [pre.length]) = some c := by
          rw [at?_append, hroot]
          cases c <;> simp [TNode.at?]
        obtain ⟨old2, h2⟩ := scanLoop_node S A c _ _ hat hao.1 n rest old1
        refine ⟨old2, ?_⟩
        simp only [costL, hv, Bool.false_eq_true, if_false, pending, scanL, List.reverse_cons, List.append_assoc,
          List.singleton_append]
        rw [show pre.length + 1 = (pre ++ [c]).length by simp, Nat.add_assoc, ih, hcs]
        simp only [after_ok, Res.ok_bind]
        rw [h2, after_bind]
        apply after_ext
        intro c' _
        rw [putAt_append p [pre.length] _ _ c' hroot, putAt_putAt]
        simp [after, TNode.putAt, modify_mid]
      | throw e =>
        refine ⟨none, ?_⟩
        simp only [costL, hv, Bool.false_eq_true, if_false, pending, scanL, List.reverse_cons, List.append_assoc,
          List.singleton_append]
        rw [show pre.length + 1 = (pre ++ [c]).length by simp, Nat.add_assoc, ih, hcs]
        rfl
      | ub =>
        refine ⟨none, ?_⟩
        simp only [costL, hv, Bool.false_eq_true, if_false, pending, scanL, List.reverse_cons, List.append_assoc,
          List.singleton_append]
        rw [show pre.length + 1 = (pre ++ [c]).length by simp, Nat.add_assoc, ih, hcs]
        rfl
      | abort =>
        refine ⟨none, ?_⟩
        simp only [costL, hv, Bool.false_eq_true, if_false, pending, scanL, List.reverse_cons, List.append_assoc,
          List.singleton_append]
        rw [show pre.length + 1 = (pre ++ [c]).length by simp, Nat.add_assoc, ih, hcs]
        rfl
end

end Abe
