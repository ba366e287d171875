import Verif.Proof.Tree
/-! What marking computes. -/
set_option linter.unusedSimpArgs false
set_option autoImplicit false
namespace Abe

mutual
/-- Marks are justified: a marked leaf is held; under a marked AND every child is marked; under
a marked OR exactly one child is marked. -/
def Good (A : List Bytes) : TNode → Prop
  | .leaf fl pre lab _ => fl.mark = true → completeLabel pre lab ∈ A
  | .gate fl ty _ subs =>
    (fl.mark = true → ty = .and → ∀ c ∈ subs, c.mark = true) ∧
    (fl.mark = true → ty = .or → ∃ l c r, subs = l ++ c :: r ∧ c.mark = true ∧
      (∀ d ∈ l, d.mark = false) ∧ (∀ d ∈ r, d.mark = false)) ∧ GoodL A subs
/-- `Good` for all children -/
def GoodL (A : List Bytes) : List TNode → Prop
  | [] => True
  | c :: cs => Good A c ∧ GoodL A cs
end

theorem GoodL_iff (A) : ∀ l, GoodL A l ↔ ∀ c ∈ l, Good A c
  | [] => by simp [GoodL]
  | c :: cs => by simp [GoodL, GoodL_iff A cs]

theorem Good.unmark {A t} (h : Good A t) : Good A (t.setMark false 0) := by
  cases t with
  | leaf => simp [TNode.setMark, TNode.withFlags, Good, TNode.flags]
  | gate => simpa [TNode.setMark, TNode.withFlags, Good, TNode.flags] using h.2.2

theorem Good.setVisited {A t} (h : Good A t) : Good A (setVisited t) := by
  cases t with
  | leaf => simpa [Abe.setVisited, TNode.withFlags, Good, TNode.flags] using h
  | gate => simpa [Abe.setVisited, TNode.withFlags, Good, TNode.flags] using h

theorem setMark_mark (t : TNode) (m n) : (t.setMark m n).mark = m := by
  cases t <;> rfl
theorem setMark_sat (t : TNode) (m n) : (t.setMark m n).flags.sat = some n := by
  cases t <;> rfl
theorem setMark_visited (t : TNode) (m n) : (t.setMark m n).flags.visited = t.flags.visited := by
  cases t <;> rfl
theorem setVisited_mark (t : TNode) : (setVisited t).mark = t.mark := by cases t <;> rfl
theorem setVisited_sat (t : TNode) : (setVisited t).flags.sat = t.flags.sat := by cases t <;> rfl
theorem setVisited_visited (t : TNode) : (setVisited t).flags.visited = true := by cases t <;> rfl

/-! ### The AND loop -/

theorem andLoop_ok : ∀ (subs : List TNode) (r : Bool) (n : Int),
    (∀ c ∈ subs, c.flags.sat.isSome) →
    ∃ m, andLoop subs r n = .ok (r && subs.all TNode.mark, m)
  | [], r, n, _ => ⟨n, by simp [andLoop]⟩
  | c :: cs, r, n, h => by
    obtain ⟨k, hk⟩ := Option.isSome_iff_exists.mp (h c (by simp))
    obtain ⟨m, hm⟩ := andLoop_ok cs (r && c.mark) (n + k) (fun d hd => h d (by simp [hd]))
    exact ⟨m, by simp [andLoop, hk, hm, Bool.and_assoc]⟩

/-! ### The OR loop -/

theorem mem_orList : ∀ (subs : List TNode) (k i n : Nat),
    (i, n) ∈ orList subs k → k ≤ i ∧ markAt subs (i - k) = true
  | [], _, _, _, h => by simp [orList] at h
  | c :: cs, k, i, n, h => by
    have step : (i, n) ∈ orList cs (k + 1) → k ≤ i ∧ markAt (c :: cs) (i - k) = true := by
      intro h'
      obtain ⟨h1, h2⟩ := mem_orList cs (k + 1) i n h'
      refine ⟨by omega, ?_⟩
      have e : i - k = (i - (k + 1)) + 1 := by omega
      rw [e]; simpa [markAt] using h2
    simp only [orList] at h
    by_cases hm : c.mark = true
    · simp only [hm, if_true, List.mem_cons, Prod.mk.injEq] at h
      rcases h with ⟨rfl, _⟩ | h
      · simp [markAt, hm]
      · exact step h
    · simp only [hm, if_false] at h
      exact step (by simpa using h)

theorem orList_complete : ∀ (subs : List TNode) (k i : Nat), markAt subs i = true →
    ∃ n, (k + i, n) ∈ orList subs k
  | [], _, _, h => by simp [markAt] at h
  | c :: cs, k, 0, h => by
    simp only [markAt, List.getElem?_cons_zero] at h
    exact ⟨_, by simp only [orList, h, if_true, Nat.add_zero]; exact List.mem_cons_self ..⟩
  | c :: cs, k, i + 1, h => by
    have h' : markAt cs i = true := by simpa [markAt] using h
    obtain ⟨n, hn⟩ := orList_complete cs (k + 1) i h'
    refine ⟨n, ?_⟩
    have e : k + (i + 1) = k + 1 + i := by omega
    rw [e]
    simp only [orList]
    split
    · exact List.mem_cons_of_mem _ hn
    · exact hn

theorem orList_nodup : ∀ (subs : List TNode) (k : Nat), ((orList subs k).map Prod.fst).Nodup
  | [], _ => by simp [orList]
  | c :: cs, k => by
    simp only [orList]
    split
    · rw [List.map_cons, List.nodup_cons]
      refine ⟨?_, orList_nodup cs (k + 1)⟩
      intro h
      obtain ⟨⟨i, n⟩, h1, h2⟩ := List.mem_map.mp h
      have := (mem_orList cs (k + 1) i n h1).1
      simp only at h2; omega
    · exact orList_nodup cs (k + 1)

theorem markAt_modify (subs : List TNode) (i j : Nat) :
    markAt (subs.modify i (fun c => c.setMark false 0)) j = (markAt subs j && (i != j)) := by
  unfold markAt
  rw [List.getElem?_modify]
  by_cases h : i = j
  · subst h
    cases subs[i]? <;> simp [setMark_mark]
  · cases subs[j]? <;> simp [h]

/-- After the first child was kept, the loop unmarks all the others. -/
theorem orLoop_zero : ∀ (l : List (Nat × Nat)) (r : Bool) (subs : List TNode),
    ∃ subs', orLoop l 0 r subs = (r, subs') ∧ subs'.length = subs.length ∧
      (∀ j, markAt subs' j = (markAt subs j && decide (j ∉ l.map Prod.fst))) ∧
      (∀ (j : Nat) (c : TNode), subs'[j]? = some c → ∃ d, subs[j]? = some d ∧
        (c = d ∨ c = d.setMark false 0)) 
  | [], r, subs => ⟨subs, rfl, rfl, by simp, fun j c h => ⟨c, h, .inl rfl⟩⟩
  | (i, n) :: l, r, subs => by
    by_cases hm : markAt subs i = true
    · obtain ⟨s', h1, h2, h3, h4⟩ := orLoop_zero l r (subs.modify i (fun c => c.setMark false 0))
      refine ⟨s', by simp [orLoop, hm, h1], by simp [h2], ?_, ?_⟩
      · intro j
        rw [h3, markAt_modify]
        by_cases hj : j = i
        · subst hj; simp
        · have : (i != j) = true := by simpa using fun h => hj h.symm
          have e : (j ∈ ((i, n) :: l).map Prod.fst) ↔ j ∈ l.map Prod.fst := by simp [hj]
          rw [this, Bool.and_true, decide_eq_decide.mpr (not_congr e)]
      · intro j c hc
        obtain ⟨d, hd, hcd⟩ := h4 j c hc
        rw [List.getElem?_modify] at hd
        cases hs : subs[j]? with
        | none => simp [hs] at hd
        | some e =>
          simp only [hs, Option.map_eq_map, Option.map_some, Option.some.injEq] at hd
          refine ⟨e, rfl, ?_⟩
          by_cases hij : i = j
          · simp only [hij, if_true] at hd
            subst hd
            right
            rcases hcd with rfl | rfl
            · rfl
            · cases e <;> rfl
          · simp only [hij, if_false, id] at hd
            subst hd; exact hcd
    · obtain ⟨s', h1, h2, h3, h4⟩ := orLoop_zero l r subs
      refine ⟨s', by simp [orLoop, hm, h1], h2, ?_, h4⟩
      intro j
      rw [h3]
      by_cases hj : j = i
      · subst hj; simp [hm]
      · have e : (j ∈ ((i, n) :: l).map Prod.fst) ↔ j ∈ l.map Prod.fst := by simp [hj]
        rw [decide_eq_decide.mpr (not_congr e)]

theorem markAt_of_get {subs : List TNode} {j c} (h : subs[j]? = some c) :
    markAt subs j = c.mark := by simp [markAt, h]

/-- What the OR branch does with the children. -/
theorem or_spec (S : StdSort) (subs : List TNode) :
    (subs.any TNode.mark = false ∧ S.fn (orList subs 0) = [] ∧
        orLoop (S.fn (orList subs 0)) 1 false subs = (false, subs)) ∨
    (∃ i n rest subs', S.fn (orList subs 0) = (i, n) :: rest ∧
      subs.any TNode.mark = true ∧
      orLoop (S.fn (orList subs 0)) 1 false subs = (true, subs') ∧
      subs'.length = subs.length ∧ markAt subs' i = true ∧
      (∀ j, j ≠ i → markAt subs' j = false) ∧
      (∀ (j : Nat) (c : TNode), subs'[j]? = some c → ∃ d, subs[j]? = some d ∧
        (c = d ∨ c = d.setMark false 0))) := by
  have hp := S.perm (orList subs 0)
  have hmem : ∀ p, p ∈ S.fn (orList subs 0) → markAt subs p.1 = true := by
    intro p h
    have := (mem_orList subs 0 p.1 p.2 (hp.mem_iff.mp h)).2
    simpa using this
  have hcomp : ∀ j, markAt subs j = true → j ∈ (S.fn (orList subs 0)).map Prod.fst := by
    intro j hj
    obtain ⟨n, hn⟩ := orList_complete subs 0 j hj
    rw [Nat.zero_add] at hn
    exact List.mem_map.mpr ⟨(j, n), hp.mem_iff.mpr hn, rfl⟩
  have hnd : ((S.fn (orList subs 0)).map Prod.fst).Nodup :=
    (hp.map Prod.fst).nodup_iff.mpr (orList_nodup subs 0)
  rcases hl : S.fn (orList subs 0) with _ | ⟨⟨i, n⟩, rest⟩
  · left
    refine ⟨?_, rfl, rfl⟩
    rw [List.any_eq_false]
    intro c hc hm
    obtain ⟨j, hj⟩ := List.mem_iff_getElem?.mp hc
    have := hcomp j (by rw [markAt_of_get hj]; exact hm)
    rw [hl] at this; simp at this
  · right
    rw [hl] at hmem hcomp hnd
    have hi : markAt subs i = true := hmem (i, n) (by simp)
    obtain ⟨s', h1, h2, h3, h4⟩ := orLoop_zero rest true subs
    refine ⟨i, n, rest, s', rfl, ?_, ?_, h2, ?_, ?_, h4⟩
    · unfold markAt at hi
      rw [List.any_eq_true]
      cases hs : subs[i]? with
      | none => simp [hs] at hi
      | some c => exact ⟨c, List.mem_of_getElem? hs, by simpa [hs] using hi⟩
    · simp [orLoop, hi, h1]
    · rw [h3, hi]
      simp only [List.map_cons, List.nodup_cons] at hnd
      simpa using hnd.1
    · intro j hj
      rw [h3]
      by_cases hm : markAt subs j = true
      · have := hcomp j hm
        simp only [List.map_cons, List.mem_cons] at this
        rcases this with h | h
        · exact absurd h hj
        · simp only [hm, Bool.true_and, decide_eq_false_iff_not, not_not]; exact h
      · simp [hm]

/-- A gate that was scanned: its children were, and its mark is the value of the children. -/
def Settled : TNode → Prop
  | .leaf _ _ _ _ => True
  | .gate fl ty _ subs => (∀ c ∈ subs, c.flags.visited = true ∧ c.flags.sat.isSome) ∧
    (ty = .and → fl.mark = subs.all TNode.mark) ∧ (ty = .or → fl.mark = subs.any TNode.mark)

theorem Settled.setVisited {t} (h : Settled t) : Settled (setVisited t) := by
  cases t with
  | leaf => trivial
  | gate => exact h

theorem or_kids {subs' s' : List TNode} (hk : ∀ c ∈ subs', c.flags.visited = true ∧ c.flags.sat.isSome)
    (hd : ∀ (j : Nat) (c : TNode), s'[j]? = some c → ∃ d, subs'[j]? = some d ∧
        (c = d ∨ c = d.setMark false 0)) :
    ∀ c ∈ s', c.flags.visited = true ∧ c.flags.sat.isSome := by
  intro c hc
  obtain ⟨k, hk'⟩ := List.mem_iff_getElem?.mp hc
  obtain ⟨d, hd1, hd2⟩ := hd k c hk'
  have := hk d (List.mem_of_getElem? hd1)
  rcases hd2 with rfl | rfl
  · exact this
  · rw [setMark_visited, setMark_sat]; exact ⟨this.1, rfl⟩

theorem any_of_markAt {s' : List TNode} {i : Nat} (hi : markAt s' i = true) :
    s'.any TNode.mark = true := by
  unfold markAt at hi
  rw [List.any_eq_true]
  cases hs : s'[i]? with
  | none => simp [hs] at hi
  | some c => exact ⟨c, List.mem_of_getElem? hs, by simpa [hs] using hi⟩

/-- What scanning guarantees about the tree it returns. -/
structure Scanned (A : List Bytes) (t t' : TNode) : Prop where
  mark : t'.mark = sat A t
  hassat : t'.flags.sat.isSome
  zero : t'.mark = false → t'.flags.sat = some 0
  visited : t'.flags.visited = true
  good : Good A t'
  same : SameTree t' t
  settled : Settled t'

theorem scanL_ok (S : StdSort) (A : List Bytes) : ∀ subs : List TNode,
    (∀ c ∈ subs, c.flags.visited = false) →
    (∀ c ∈ subs, ∃ c', scan S A c = .ok c' ∧ Scanned A c c') →
    ∃ subs', scanL S A subs = .ok subs' ∧ List.Forall₂ (Scanned A) subs subs'
  | [], _, _ => ⟨[], rfl, .nil⟩
  | c :: cs, hv, h => by
    obtain ⟨cs', h1, h2⟩ := scanL_ok S A cs (fun d hd => hv d (by simp [hd]))
      (fun d hd => h d (by simp [hd]))
    obtain ⟨c', h3, h4⟩ := h c (by simp)
    refine ⟨c' :: cs', ?_, .cons h4 h2⟩
    simp [scanL, h1, hv c (by simp), h3]

theorem forall₂_mem {α β} {R : α → β → Prop} {l : List α} {l' : List β}
    (h : List.Forall₂ R l l') : ∀ y ∈ l', ∃ x ∈ l, R x y := by
  induction h with
  | nil => simp
  | cons hab _ ih =>
    intro y hy
    rcases List.mem_cons.mp hy with rfl | hy
    · exact ⟨_, by simp, hab⟩
    · obtain ⟨x, hx, hr⟩ := ih y hy
      exact ⟨x, by simp [hx], hr⟩

theorem forall₂_map_eq {α β γ} {R : α → β → Prop} {f : α → γ} {g : β → γ} {l : List α} {l' : List β}
    (h : List.Forall₂ R l l') (hr : ∀ x y, R x y → g y = f x) : l'.map g = l.map f := by
  induction h with
  | nil => rfl
  | cons hab _ ih => simp [hr _ _ hab, ih]

theorem all_map_mark (subs : List TNode) : subs.all TNode.mark = (subs.map TNode.mark).all id := by
  simp [List.all_map]
theorem any_map_mark (subs : List TNode) : subs.any TNode.mark = (subs.map TNode.mark).any id := by
  simp [List.any_map]

/-- Marking is exactly Boolean evaluation, the marks are justified, and the tree is otherwise
unchanged. -/
theorem scan_ok (S : StdSort) (A : List Bytes) : ∀ t, AndOr t → Fresh t →
    ∃ t', scan S A t = .ok t' ∧ Scanned A t t' := by
  apply TNode.ind
  · intro fl pre lab idx _ _
    refine ⟨_, rfl, ?_⟩
    constructor
    · simp [TNode.mark, TNode.flags, sat]
    · simp [TNode.flags]
    · simp [TNode.flags, TNode.mark]
    · simp [TNode.flags]
    · simp [Good]
    · simp [SameTree, resetFlags]
    · trivial
  · intro fl ty thr subs ih hao hfr
    obtain ⟨hty, hne, hs⟩ := hao
    rw [AndOrL_iff] at hs
    have hf : ∀ c ∈ subs, c.flags.visited = false ∧ Fresh c := (FreshL_iff _).1 hfr
    obtain ⟨subs', h1, h2⟩ := scanL_ok S A subs (fun c hc => (hf c hc).1)
      (fun c hc => ih c hc (hs c hc) (hf c hc).2)
    have hmarks : subs'.map TNode.mark = subs.map (sat A) :=
      forall₂_map_eq h2 fun x y h => h.mark
    have hres : subs'.map resetFlags = subs.map resetFlags :=
      forall₂_map_eq h2 fun x y h => h.same
    have hgood : ∀ c ∈ subs', Good A c := fun c hc => by
      obtain ⟨x, _, hx⟩ := forall₂_mem h2 c hc; exact hx.good
    have hsat : ∀ c ∈ subs', c.flags.sat.isSome := fun c hc => by
      obtain ⟨x, _, hx⟩ := forall₂_mem h2 c hc; exact hx.hassat
    have hkids : ∀ c ∈ subs', c.flags.visited = true ∧ c.flags.sat.isSome := fun c hc => by
      obtain ⟨x, _, hx⟩ := forall₂_mem h2 c hc; exact ⟨hx.visited, hx.hassat⟩
    rcases hty with rfl | rfl
    · obtain ⟨m, hm⟩ := andLoop_ok subs' true 0 hsat
      have hall : subs'.all TNode.mark = sat A (.gate fl .and thr subs) := by
        rw [all_map_mark, hmarks]; simp [sat, satL_eq]
      by_cases hb : subs'.all TNode.mark = true
      · refine ⟨setVisited (.gate { fl with mark := true, sat := some m } .and thr subs'), ?_, ?_⟩
        · simp only [scan, h1, Res.ok_bind, determine, hm, hb, Bool.true_and, if_true]
        · refine ⟨?_, ?_, ?_, setVisited_visited _, ?_, ?_, ?_⟩
          · rw [setVisited_mark, ← hall, hb]; rfl
          · rw [setVisited_sat]; rfl
          · rw [setVisited_mark, setVisited_sat]; simp [TNode.mark, TNode.flags]
          · apply Good.setVisited
            refine ⟨fun _ _ c hc => ?_, by simp, (GoodL_iff _ _).2 hgood⟩
            exact List.all_eq_true.mp hb c hc
          · unfold SameTree setVisited
            rw [resetFlags_withFlags]
            simp [resetFlags, resetFlagsL_eq, hres]
          · exact Settled.setVisited ⟨hkids, by simp [hb], by simp⟩
      · have hb' : subs'.all TNode.mark = false := by simpa using hb
        refine ⟨setVisited (.gate { fl with mark := false, sat := some 0 } .and thr subs'), ?_, ?_⟩
        · simp only [scan, h1, Res.ok_bind, determine, hm, hb', Bool.true_and, if_false,
            Bool.false_eq_true]
        · refine ⟨?_, ?_, ?_, setVisited_visited _, ?_, ?_, ?_⟩
          · rw [setVisited_mark, ← hall, hb']; rfl
          · rw [setVisited_sat]; rfl
          · rw [setVisited_mark, setVisited_sat]; simp [TNode.mark, TNode.flags]
          · apply Good.setVisited
            exact ⟨by simp, by simp, (GoodL_iff _ _).2 hgood⟩
          · unfold SameTree setVisited
            rw [resetFlags_withFlags]
            simp [resetFlags, resetFlagsL_eq, hres]
          · exact Settled.setVisited ⟨hkids, by simp [hb'], by simp⟩
    · have hany : subs'.any TNode.mark = sat A (.gate fl .or thr subs) := by
        rw [any_map_mark, hmarks]; simp [sat, satL_eq]
      rcases or_spec S subs' with ⟨ha, he, hl⟩ | ⟨i, n, rest, s', he, ha, hl, hlen, hi, hj, hd⟩
      · refine ⟨setVisited (.gate { fl with mark := false, sat := some 0 } .or thr subs'), ?_, ?_⟩
        · simp only [scan, h1, Res.ok_bind, determine, hl, if_false, Bool.false_eq_true]
        · refine ⟨?_, ?_, ?_, setVisited_visited _, ?_, ?_, ?_⟩
          · rw [setVisited_mark, ← hany, ha]; rfl
          · rw [setVisited_sat]; rfl
          · rw [setVisited_mark, setVisited_sat]; simp [TNode.mark, TNode.flags]
          · apply Good.setVisited
            exact ⟨by simp, by simp, (GoodL_iff _ _).2 hgood⟩
          · unfold SameTree setVisited
            rw [resetFlags_withFlags]
            simp [resetFlags, resetFlagsL_eq, hres]
          · exact Settled.setVisited ⟨hkids, by simp , by simp [ha]⟩
      · refine ⟨setVisited (.gate { fl with mark := true, sat := some (n : Int) } .or thr s'), ?_, ?_⟩
        · simp only [scan, h1, Res.ok_bind, determine, hl, if_true]
          rw [he]
          rfl
        · refine ⟨?_, ?_, ?_, setVisited_visited _, ?_, ?_, ?_⟩
          · rw [setVisited_mark, ← hany, ha]; rfl
          · rw [setVisited_sat]; rfl
          · rw [setVisited_mark, setVisited_sat]; simp [TNode.mark, TNode.flags]
          · apply Good.setVisited
            refine ⟨by simp, fun _ _ => ?_, (GoodL_iff _ _).2 ?_⟩
            · have hsi : ∃ c, s'[i]? = some c := by
                unfold markAt at hi
                cases hs : s'[i]? with
                | none => simp [hs] at hi
                | some c => exact ⟨c, rfl⟩
              obtain ⟨c, hc⟩ := hsi
              obtain ⟨hlt, hget⟩ := List.getElem?_eq_some_iff.mp hc
              refine ⟨s'.take i, c, s'.drop (i + 1), ?_, ?_, ?_, ?_⟩
              · rw [← hget, List.getElem_cons_drop, List.take_append_drop]
              · rw [← markAt_of_get hc]; exact hi
              · intro d hd'
                obtain ⟨k, hk⟩ := List.mem_iff_getElem?.mp hd'
                rw [List.getElem?_take] at hk
                split at hk
                · rw [← markAt_of_get hk]; exact hj k (by omega)
                · simp at hk
              · intro d hd'
                obtain ⟨k, hk⟩ := List.mem_iff_getElem?.mp hd'
                rw [List.getElem?_drop] at hk
                rw [← markAt_of_get hk]; exact hj _ (by omega)
            · intro c hc
              obtain ⟨k, hk⟩ := List.mem_iff_getElem?.mp hc
              obtain ⟨d, hd1, hd2⟩ := hd k c hk
              have hgd := hgood d (List.mem_of_getElem? hd1)
              rcases hd2 with rfl | rfl
              · exact hgd
              · exact hgd.unmark
          · unfold SameTree setVisited
            rw [resetFlags_withFlags]
            have hres' : s'.map resetFlags = subs'.map resetFlags := by
              apply List.ext_getElem?
              intro k
              simp only [List.getElem?_map]
              cases hk : s'[k]? with
              | none =>
                have : subs'[k]? = none := by
                  rw [List.getElem?_eq_none_iff] at hk ⊢; omega
                simp [this]
              | some c =>
                obtain ⟨d, hd1, hd2⟩ := hd k c hk
                rw [hd1]
                rcases hd2 with rfl | rfl
                · rfl
                · simp [resetFlags_setMark]
            simp [resetFlags, resetFlagsL_eq, hres, hres']
          · exact Settled.setVisited ⟨or_kids hkids hd, by simp, fun _ => (any_of_markAt hi).symm⟩


/-- When every child has been visited the scan only looks at the root. -/
theorem scanL_visited (S : StdSort) (A : List Bytes) : ∀ subs : List TNode,
    (∀ c ∈ subs, c.flags.visited = true) → scanL S A subs = .ok subs
  | [], _ => rfl
  | c :: cs, h => by
    simp [scanL, scanL_visited S A cs (fun d hd => h d (by simp [hd])), h c (by simp)]

/-- Scanning a settled gate again, whatever the attributes, gives the same answer. -/
theorem rescan (S : StdSort) (A B : List Bytes) {fl : Flags} {ty : Gate} {thr : Nat}
    {subs : List TNode} (hao : AndOr (.gate fl ty thr subs)) (hg : Good A (.gate fl ty thr subs))
    (hs : Settled (.gate fl ty thr subs)) :
    ∃ fl' subs', scan S B (.gate fl ty thr subs) = .ok (.gate fl' ty thr subs') ∧
      fl'.mark = fl.mark ∧ Good A (.gate fl' ty thr subs') ∧ Settled (.gate fl' ty thr subs') ∧
      SameTree (.gate fl' ty thr subs') (.gate fl ty thr subs) := by
  obtain ⟨hk, hand, hor⟩ := hs
  have h1 := scanL_visited S B subs (fun c hc => (hk c hc).1)
  rcases hao.1 with rfl | rfl
  · obtain ⟨m, hm⟩ := andLoop_ok subs true 0 (fun c hc => (hk c hc).2)
    have hb := hand rfl
    cases hfl : fl.mark with
    | true =>
      rw [hfl] at hb
      refine ⟨{ fl with mark := true, sat := some m, visited := true }, subs, ?_, rfl, ?_, ?_, ?_⟩
      · simp only [scan, h1, Res.ok_bind, determine, hm, ← hb, Bool.true_and, if_true]; rfl
      · exact ⟨fun _ _ => hg.1 hfl rfl, by simp, hg.2.2⟩
      · exact ⟨hk, fun _ => hb, by simp⟩
      · simp [SameTree, resetFlags]
    | false =>
      rw [hfl] at hb
      refine ⟨{ fl with mark := false, sat := some 0, visited := true }, subs, ?_, rfl, ?_, ?_, ?_⟩
      · simp only [scan, h1, Res.ok_bind, determine, hm, ← hb, Bool.true_and, if_false,
          Bool.false_eq_true]; rfl
      · exact ⟨by simp, by simp, hg.2.2⟩
      · exact ⟨hk, fun _ => hb, by simp⟩
      · simp [SameTree, resetFlags]
  · have hb := hor rfl
    rcases or_spec S subs with ⟨ha, he, hl⟩ | ⟨i, n, rest, s', he, ha, hl, hlen, hi, hj, hd⟩
    · refine ⟨{ fl with mark := false, sat := some 0, visited := true }, subs, ?_, ?_, ?_, ?_, ?_⟩
      · simp only [scan, h1, Res.ok_bind, determine, hl, if_false, Bool.false_eq_true]; rfl
      · simp [hb, ha]
      · exact ⟨by simp, by simp, hg.2.2⟩
      · exact ⟨hk, by simp, fun _ => ha.symm⟩
      · simp [SameTree, resetFlags]
    · -- exactly one child was marked, so the loop changes nothing
      have hfl : fl.mark = true := by rw [hb, ha]
      obtain ⟨l, c, r, hsub, hc, hl', hr'⟩ := hg.2.1 hfl rfl
      have hgd := (GoodL_iff _ _).1 hg.2.2
      have huniq : ∀ k d, subs[k]? = some d → d.mark = true → k = l.length := by
        intro k d hk' hm
        rw [hsub] at hk'
        rcases Nat.lt_trichotomy k l.length with h | h | h
        · rw [List.getElem?_append_left h] at hk'
          have := hl' d (List.mem_of_getElem? hk'); rw [hm] at this; simp at this
        · exact h
        · rw [List.getElem?_append_right (by omega)] at hk'
          obtain ⟨j, hj'⟩ : ∃ j, k - l.length = j + 1 := ⟨k - l.length - 1, by omega⟩
          rw [hj', List.getElem?_cons_succ] at hk'
          have := hr' d (List.mem_of_getElem? hk'); rw [hm] at this; simp at this
      have hsi : ∃ c, s'[i]? = some c := by
        unfold markAt at hi
        cases hs : s'[i]? with
        | none => simp [hs] at hi
        | some c => exact ⟨c, rfl⟩
      obtain ⟨e, hec⟩ := hsi
      have hem : e.mark = true := by rw [← markAt_of_get hec]; exact hi
      obtain ⟨hlt, hget⟩ := List.getElem?_eq_some_iff.mp hec
      have hres' : s'.map resetFlags = subs.map resetFlags := by
        apply List.ext_getElem?
        intro k
        simp only [List.getElem?_map]
        cases hk : s'[k]? with
        | none =>
          have : subs[k]? = none := by
            rw [List.getElem?_eq_none_iff] at hk ⊢; omega
          simp [this]
        | some c =>
          obtain ⟨d, hd1, hd2⟩ := hd k c hk
          rw [hd1]
          rcases hd2 with rfl | rfl
          · rfl
          · simp [resetFlags_setMark]
      refine ⟨{ fl with mark := true, sat := some (n : Int), visited := true }, s', ?_, ?_, ?_, ?_, ?_⟩
      · simp only [scan, h1, Res.ok_bind, determine, hl, if_true]
        rw [he]; rfl
      · simp [hfl]
      · refine ⟨by simp, fun _ _ => ?_, (GoodL_iff _ _).2 ?_⟩
        · refine ⟨s'.take i, e, s'.drop (i + 1), ?_, hem, ?_, ?_⟩
          · rw [← hget, List.getElem_cons_drop, List.take_append_drop]
          · intro d hd'
            obtain ⟨k, hk⟩ := List.mem_iff_getElem?.mp hd'
            rw [List.getElem?_take] at hk
            split at hk
            · rw [← markAt_of_get hk]; exact hj k (by omega)
            · simp at hk
          · intro d hd'
            obtain ⟨k, hk⟩ := List.mem_iff_getElem?.mp hd'
            rw [List.getElem?_drop] at hk
            rw [← markAt_of_get hk]; exact hj _ (by omega)
        · intro c hc
          obtain ⟨k, hk⟩ := List.mem_iff_getElem?.mp hc
          obtain ⟨d, hd1, hd2⟩ := hd k c hk
          have := hgd d (List.mem_of_getElem? hd1)
          rcases hd2 with rfl | rfl
          · exact this
          · exact this.unmark
      · exact ⟨or_kids hk hd, by simp, fun _ => (any_of_markAt hi).symm⟩
      · simp [SameTree, resetFlags, resetFlagsL_eq, hres']

end Abe
