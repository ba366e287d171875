import Verif.Proof.Rows
/-! Trees in which direct subnodes order OR gates wrongly use too many rows for some attributes. -/
set_option linter.unusedSimpArgs false
set_option linter.unusedSectionVars false
set_option autoImplicit false
namespace Abe

/-- The attributes of a tree, left to right. -/
def attrsOf (t : TNode) : List Bytes := (leaves t).map Leaf.label

theorem attrsOf_gate (fl ty thr subs) : attrsOf (.gate fl ty thr subs) = subs.flatMap attrsOf := by
  simp only [attrsOf, leaves, leavesL_eq, List.map_flatMap]; rfl

theorem mem_attrsOf {t : TNode} {l : Leaf} (h : l ∈ leaves t) : l.label ∈ attrsOf t := List.mem_map.mpr ⟨l, h, rfl⟩

theorem sat_none' {A : List Bytes} {t : TNode} (hao : AndOr t) (h : ∀ b ∈ attrsOf t, b ∉ A) : sat A t = false :=
  sat_none t hao fun _ hl => h _ (mem_attrsOf hl)

theorem sat_all' {A : List Bytes} {t : TNode} (hao : AndOr t) (h : ∀ b ∈ attrsOf t, b ∈ A) : sat A t = true :=
  sat_all t hao fun _ hl => h _ (mem_attrsOf hl)

theorem attrs_disjoint {subs : List TNode} (h : (subs.flatMap attrsOf).Nodup) {i j : Nat} {c d : TNode} (hij : i ≠ j)
    (hi : subs[i]? = some c) (hj : subs[j]? = some d) : ∀ b ∈ attrsOf c, b ∉ attrsOf d := by
  have hp := (List.nodup_flatMap.mp h).2
  rw [List.pairwise_iff_getElem] at hp
  obtain ⟨hi', rfl⟩ := List.getElem?_eq_some_iff.mp hi
  obtain ⟨hj', rfl⟩ := List.getElem?_eq_some_iff.mp hj
  rcases Nat.lt_or_gt_of_ne hij with h | h
  · intro b hb hb'; exact (hp i j hi' hj' h) hb hb'
  · intro b hb hb'; exact (hp j i hj' hi' h) hb' hb

/-- The attributes of one way allow no other number of leaves. -/
theorem unique_way : ∀ (t : TNode), AndOr t → (attrsOf t).Nodup → ∀ n, Ways (fun _ => True) t n →
    ∃ B : List Bytes, (∀ b ∈ B, b ∈ attrsOf t) ∧ Ways (· ∈ B) t n ∧ ∀ k, Ways (· ∈ B) t k → k = n := by
  apply TNode.ind
  · intro fl pre lab idx _ _ n h
    obtain ⟨-, rfl⟩ := ways_leaf.mp h
    exact ⟨[completeLabel pre lab], by simp [attrsOf, leaves, Leaf.label], .leaf (by simp), fun k hk => (ways_leaf.mp hk).2⟩
  · intro fl ty thr subs ih hao hnd n h
    obtain ⟨hty, -, hs⟩ := hao
    rw [AndOrL_iff] at hs
    rw [attrsOf_gate] at hnd ⊢
    rcases hty with rfl | rfl
    · induction subs generalizing n with
      | nil => cases h; exact ⟨[], by simp, .none, fun k hk => by cases hk; rfl⟩
      | cons c cs ihl =>
        cases h with
        | @all _ _ _ _ n m h1 h2 =>
          rw [List.flatMap_cons, List.nodup_append] at hnd
          obtain ⟨B, b1, b2, b3⟩ := ih c (by simp) (hs c (by simp)) hnd.1 n h1
          obtain ⟨C, c1, c2, c3⟩ := ihl (fun d hd => ih d (by simp [hd])) hnd.2.1 m (fun d hd => hs d (by simp [hd])) h2
          refine ⟨B ++ C, ?_, .all (ways_mono (fun x hx => ?_) b2) (ways_mono (fun x hx => ?_) c2), ?_⟩
          · intro b hb
            rw [List.flatMap_cons, List.mem_append]
            exact (List.mem_append.mp hb).imp (b1 b) (c1 b)
          · exact List.mem_append.mpr (.inl hx)
          · exact List.mem_append.mpr (.inr hx)
          · intro k hk
            cases hk with
            | @all _ _ _ _ n' m' g1 g2 =>
              rw [b3 n' (ways_congr c n' (fun l hl h => ?_) g1), c3 m' (ways_congr _ m' (fun l hl h => ?_) g2)]
              · rcases List.mem_append.mp h with h | h
                · have hl' : l.label ∈ cs.flatMap attrsOf := by rw [← attrsOf_gate fl .and thr]; exact mem_attrsOf hl
                  exact absurd rfl (hnd.2.2 _ (b1 _ h) _ hl')
                · exact h
              · rcases List.mem_append.mp h with h | h
                · exact h
                · exact absurd rfl (hnd.2.2 _ (mem_attrsOf hl) _ (c1 _ h))
    · obtain ⟨c, hc, hw⟩ := ways_or.mp h
      obtain ⟨B, b1, b2, b3⟩ := ih c hc (hs c hc) ((List.nodup_flatMap.mp hnd).1 c hc) n hw
      refine ⟨B, fun b hb => List.mem_flatMap.mpr ⟨c, hc, b1 b hb⟩, .one hc b2, fun k hk => ?_⟩
      obtain ⟨d, hd, hk⟩ := ways_or.mp hk
      obtain ⟨i, hi⟩ := List.mem_iff_getElem?.mp hc
      obtain ⟨j, hj⟩ := List.mem_iff_getElem?.mp hd
      by_cases hij : i = j
      · subst hij; rw [hi] at hj; obtain rfl : c = d := by simpa using hj
        exact b3 k hk
      · have := sat_none' (hs d hd) (A := B) fun b hb hB => attrs_disjoint hnd hij hi hj b (b1 b hB) hb
        rw [sat_of_ways hk] at this; exact absurd this (by simp)

/-- A sorting function that puts entry `i` first among equals. -/
def prefer (i : Nat) : StdSort where
  fn l := l.mergeSort fun a b => decide (a.2 < b.2 ∨ (a.2 = b.2 ∧ (a.1 = i ∨ b.1 ≠ i)))
  perm l := List.mergeSort_perm l _
  sorted l := by
    refine (List.pairwise_mergeSort ?_ ?_ l).imp ?_
    · intro a b c; simp only [decide_eq_true_eq]; omega
    · intro a b; simp only [Bool.or_eq_true, decide_eq_true_eq]; omega
    · intro a b; simp only [decide_eq_true_eq]; omega

theorem prefer_head {i k i0 n0 : Nat} {l rest : List (Nat × Nat)} (h : (prefer i).fn l = (i0, n0) :: rest) (hi : (i, k) ∈ l) :
    n0 < k ∨ i0 = i := by
  have hs : ((prefer i).fn l).Pairwise fun a b => a.2 < b.2 ∨ (a.2 = b.2 ∧ (a.1 = i ∨ b.1 ≠ i)) := by
    refine (List.pairwise_mergeSort ?_ ?_ l).imp ?_
    · intro a b c; simp only [decide_eq_true_eq]; omega
    · intro a b; simp only [Bool.or_eq_true, decide_eq_true_eq]; omega
    · intro a b; simp only [decide_eq_true_eq]; exact id
  have hm := ((prefer i).perm l).mem_iff.mpr hi
  rw [h] at hs hm
  rcases List.mem_cons.mp hm with e | hm
  · simp only [Prod.mk.injEq] at e; omega
  · have := (List.pairwise_cons.mp hs).1 _ hm
    simp only at this; omega

theorem scanL_each (S : StdSort) (A : List Bytes) : ∀ {subs subs' : List TNode}, (∀ c ∈ subs, c.flags.visited = false) →
    scanL S A subs = .ok subs' → List.Forall₂ (fun c c' => scan S A c = .ok c') subs subs'
  | [], subs', _, h => by simp only [scanL, Res.ok.injEq] at h; subst h; exact .nil
  | c :: cs, subs', hv, h => by
    simp only [scanL] at h
    obtain ⟨cs', h1, h⟩ := (Res.bind_eq_ok _ _ _).mp h
    simp only [hv c (by simp), Bool.false_eq_true, if_false] at h
    obtain ⟨c', h2, h⟩ := (Res.bind_eq_ok _ _ _).mp h
    simp only [Res.ok.injEq] at h
    subst h
    exact .cons h2 (scanL_each S A (fun d hd => hv d (by simp [hd])) h1)

theorem forall₂_get {α β : Type} {R : α → β → Prop} : ∀ {l : List α} {l' : List β}, List.Forall₂ R l l' → ∀ {i : Nat} {b : β},
    l'[i]? = some b → ∃ a, l[i]? = some a ∧ R a b := by
  intro l l' h
  induction h with
  | nil => intro i b h; simp at h
  | cons h1 _ ih =>
    intro i b h
    cases i with
    | zero => simp at h; subst h; exact ⟨_, by simp, h1⟩
    | succ i => simpa using ih (by simpa using h)

theorem takenL_single : ∀ (l : List TNode) (i : Nat) (c : TNode), l[i]? = some c → c.mark = true → (∀ j, j ≠ i → markAt l j = false) →
    takenL l = taken c
  | [], i, c, h, _, _ => by simp at h
  | d :: ds, 0, c, h, hm, hj => by
    obtain rfl : d = c := by simpa using h
    have : takenL ds = 0 := takenL_none ds fun e he => by
      obtain ⟨k, hk⟩ := List.mem_iff_getElem?.mp he
      have := hj (k + 1) (by omega)
      rwa [markAt_of_get (by simpa using hk)] at this
    simp [takenL, hm, this]
  | d :: ds, i + 1, c, h, hm, hj => by
    have h0 := hj 0 (by omega)
    rw [markAt_of_get (c := d) (by simp)] at h0
    have := takenL_single ds i c (by simpa using h) hm fun j hne => by
      have := hj (j + 1) (by omega)
      simpa [markAt] using this
    simp [takenL, h0, this]

theorem forall₂_split {α β : Type} {R : α → β → Prop} : ∀ {a b : List α} {l : List β}, List.Forall₂ R (a ++ b) l →
    ∃ l' m', l = l' ++ m' ∧ List.Forall₂ R a l' ∧ List.Forall₂ R b m'
  | [], b, l, h => ⟨[], l, rfl, .nil, h⟩
  | x :: a, b, l, h => by
    cases h with
    | cons h1 h2 =>
      obtain ⟨l', m', rfl, h3, h4⟩ := forall₂_split h2
      exact ⟨_ :: l', m', rfl, .cons h1 h3, h4⟩

/-- Which subnode of an OR gate is used. -/
theorem or_choice (S : StdSort) {A : List Bytes} {fl : Flags} {thr : Nat} {subs subs' : List TNode} {t' : TNode}
    (h1 : scanL S A subs = .ok subs') (hm : subs'.any TNode.mark = true)
    (h : scan S A (.gate fl .or thr subs) = .ok t') :
    ∃ i n rest c, S.fn (orList subs' 0) = (i, n) :: rest ∧ subs'[i]? = some c ∧ c.mark = true ∧ n = c.direct ∧ taken t' = taken c := by
  simp only [scan, h1, Res.ok_bind] at h
  rcases or_spec S subs' with ⟨ha, -, -⟩ | ⟨i, n, rest, s', he, ha, hl, hlen, hi, hj, hd⟩
  · rw [hm] at ha; exact absurd ha (by simp)
  · simp only [determine, hl, if_true] at h
    rw [he] at h
    simp only [Res.ok_bind, Res.ok.injEq] at h
    have hperm := S.perm (orList subs' 0)
    rw [he] at hperm
    obtain ⟨ci, hci, hn⟩ := mem_orList_direct subs' 0 i n (hperm.mem_iff.mp (by simp))
    rw [Nat.sub_zero] at hci
    have hsi : ∃ c, s'[i]? = some c ∧ c.mark = true := by
      unfold markAt at hi
      cases hs : s'[i]? with
      | none => simp [hs] at hi
      | some c => exact ⟨c, rfl, by simpa [hs] using hi⟩
    obtain ⟨c, hc, hcm⟩ := hsi
    obtain ⟨d, hd1, hd2⟩ := hd i c hc
    rw [hci] at hd1
    obtain rfl : ci = d := by simpa using hd1
    have hcd : c = ci := by
      rcases hd2 with h | h
      · exact h
      · rw [h, setMark_mark] at hcm; exact absurd hcm (by simp)
    subst hcd
    refine ⟨i, n, rest, c, he, hci, hcm, hn, ?_⟩
    subst h
    exact takenL_single s' i c hc hcm hj

theorem leaves_ne (t : TNode) (h : AndOr t) : attrsOf t ≠ [] := by
  intro e
  have h1 := sat_none' (A := []) h (by simp [e])
  have h2 := sat_all' (A := []) h (by simp [e])
  rw [h1] at h2; exact absurd h2 (by simp)

/-- If the tree is not clear, some holder uses more rows than necessary. -/
theorem not_clear : ∀ t, AndOr t → Fresh t → (attrsOf t).Nodup → ¬ Clear t →
    ∃ (S : StdSort) (A : List Bytes), (∀ b ∈ A, b ∈ attrsOf t) ∧ sat A t = true ∧
      ∀ t', scan S A t = .ok t' → ∃ m, Ways (· ∈ A) t m ∧ m < taken t' := by
  apply TNode.ind
  · intro fl pre lab idx _ _ _ h; exact absurd trivial h
  · intro fl ty thr subs ih hao hfr hnd hcl
    obtain ⟨hty, hne, hs⟩ := hao
    rw [AndOrL_iff] at hs
    have hf : ∀ c ∈ subs, c.flags.visited = false ∧ Fresh c := (FreshL_iff _).1 hfr
    rw [attrsOf_gate] at hnd
    have scans : ∀ (S : StdSort) (A : List Bytes), ∃ subs', scanL S A subs = .ok subs' ∧ List.Forall₂ (Scanned A) subs subs' :=
      fun S A => scanL_ok S A subs (fun c hc => (hf c hc).1) (fun c hc => scan_ok S A c (hs c hc) (hf c hc).2)
    have way : ∀ (A : List Bytes) (c c' : TNode), AndOr c → Scanned A c c' → c'.mark = true → Ways (· ∈ A) c (taken c') := by
      intro A c c' hc h hm
      exact (h.same.ways _).mp (taken_way A c' (h.same.andOr.mpr hc) h.good hm)
    by_cases hkid : ∃ c ∈ subs, ¬ Clear c
    · obtain ⟨c, hc, hnc⟩ := hkid
      obtain ⟨S, Ac, a1, a2, a3⟩ := ih c hc (hs c hc) (hf c hc).2 ((List.nodup_flatMap.mp hnd).1 c hc) hnc
      rcases hty with rfl | rfl
      · obtain ⟨l, r, rfl⟩ := List.append_of_mem hc
        have hdis : ∀ b ∈ attrsOf c, b ∉ (l ++ r).flatMap attrsOf := by
          have : (attrsOf c ++ (l ++ r).flatMap attrsOf).Nodup := by
            refine (List.Perm.nodup_iff ?_).mp hnd
            simp only [List.flatMap_append, List.flatMap_cons]
            exact (List.perm_append_comm_assoc _ _ _)
          intro b hb hb'; exact (List.nodup_append.mp this).2.2 _ hb _ hb' rfl
        refine ⟨S, Ac ++ (l ++ r).flatMap attrsOf, ?_, ?_, ?_⟩
        · intro b hb
          rw [attrsOf_gate]
          simp only [List.flatMap_append, List.flatMap_cons, List.mem_append] at hb ⊢
          rcases hb with h | h | h
          · exact .inr (.inl (a1 b h))
          · exact .inl h
          · exact .inr (.inr h)
        · simp only [sat, satL_eq, List.all_map, List.all_eq_true]
          intro d hd
          show sat _ d = true
          have hd' : d = c ∨ d ∈ l ++ r := by simp only [List.mem_append, List.mem_cons] at hd ⊢; tauto
          rcases hd' with rfl | hd'
          · obtain ⟨k, -, hk⟩ := sat_ways Ac d (hs d hc) a2
            exact sat_of_ways (ways_mono (fun x hx => List.mem_append.mpr (.inl hx)) hk)
          · exact sat_all' (hs d hd) fun b hb => List.mem_append.mpr (.inr (List.mem_flatMap.mpr ⟨d, hd', hb⟩))
        · intro t' ht
          obtain ⟨subs', h1, h2⟩ := scans S (Ac ++ (l ++ r).flatMap attrsOf)
          have h3 := scanL_each S _ (fun d hd => (hf d hd).1) h1
          have hsc : scan S (Ac ++ (l ++ r).flatMap attrsOf) c = scan S Ac c := by
            refine scan_attrs_congr S c fun x hx => ?_
            have := hdis _ (mem_attrsOf hx)
            simp only [List.contains_append]
            rw [Bool.eq_iff_iff]
            simp only [Bool.or_eq_true, List.contains_iff_mem]
            exact ⟨fun h => h.resolve_right this, .inl⟩
          have hall : ∀ c' ∈ subs', c'.mark = true := by
            intro c' hc'
            obtain ⟨d, hd, hx⟩ := forall₂_mem h2 c' hc'
            rw [hx.mark]
            have hd' : d = c ∨ d ∈ l ++ r := by simp only [List.mem_append, List.mem_cons] at hd ⊢; tauto
            rcases hd' with rfl | hd'
            · obtain ⟨k, -, hk⟩ := sat_ways Ac d (hs d hc) a2
              exact sat_of_ways (ways_mono (fun x hx => List.mem_append.mpr (.inl hx)) hk)
            · exact sat_all' (hs d hd) fun b hb => List.mem_append.mpr (.inr (List.mem_flatMap.mpr ⟨d, hd', hb⟩))
          have hsat : ∀ c ∈ subs', c.flags.sat.isSome := fun c hc => by
            obtain ⟨x, _, hx⟩ := forall₂_mem h2 c hc; exact hx.hassat
          have hb : subs'.all TNode.mark = true := List.all_eq_true.mpr hall
          simp only [scan, h1, Res.ok_bind, determine, andLoop_sum subs' true 0 hsat, Bool.true_and, hb, if_true, Res.ok.injEq] at ht
          have hta : taken t' = (subs'.map taken).sum := by
            subst ht; exact takenL_all subs' hall
          rw [hta]
          obtain ⟨l', m', e, q1, q2⟩ : ∃ l' m', subs' = l' ++ m' ∧
              List.Forall₂ (fun a b => Scanned (Ac ++ (l ++ r).flatMap attrsOf) a b ∧ scan S (Ac ++ (l ++ r).flatMap attrsOf) a = .ok b) l l' ∧
              List.Forall₂ (fun a b => Scanned (Ac ++ (l ++ r).flatMap attrsOf) a b ∧ scan S (Ac ++ (l ++ r).flatMap attrsOf) a = .ok b) (c :: r) m' := by
            have h4 : List.Forall₂ (fun a b => Scanned (Ac ++ (l ++ r).flatMap attrsOf) a b ∧
                scan S (Ac ++ (l ++ r).flatMap attrsOf) a = .ok b) (l ++ c :: r) subs' := by
              refine List.forall₂_iff_get.mpr ⟨h2.length_eq, fun i h h' => ⟨?_, ?_⟩⟩
              · exact (List.forall₂_iff_get.mp h2).2 i h h'
              · exact (List.forall₂_iff_get.mp h3).2 i h h'
            exact forall₂_split h4
          cases q2 with
          | @cons _ c' _ r' qc qr =>
            obtain ⟨m, m1, m2⟩ := a3 c' (by rw [← hsc]; exact qc.2)
            have wl : List.Forall₂ (Ways (· ∈ Ac ++ (l ++ r).flatMap attrsOf)) (l ++ c :: r) (l'.map taken ++ m :: r'.map taken) := by
              have ww : ∀ (a a' : List TNode), (∀ x ∈ a, AndOr x) → (∀ x ∈ a', x.mark = true) →
                  List.Forall₂ (fun a b => Scanned (Ac ++ (l ++ r).flatMap attrsOf) a b ∧
                    scan S (Ac ++ (l ++ r).flatMap attrsOf) a = .ok b) a a' →
                  List.Forall₂ (Ways (· ∈ Ac ++ (l ++ r).flatMap attrsOf)) a (a'.map taken) := by
                intro a a' ha hm h
                induction h with
                | nil => exact .nil
                | @cons x y a a' hxy _ ih =>
                  exact .cons (way _ x y (ha x (by simp)) hxy.1 (hm y (by simp)))
                    (ih (fun z hz => ha z (by simp [hz])) (fun z hz => hm z (by simp [hz])))
              refine List.rel_append (ww l l' (fun x hx => hs x (by simp [hx])) (fun x hx => hall x (by rw [e]; simp [hx])) q1)
                (.cons (ways_mono (fun x hx => List.mem_append.mpr (.inl hx)) m1)
                  (ww r r' (fun x hx => hs x (by simp [hx])) (fun x hx => hall x (by rw [e]; simp [hx])) qr))
            refine ⟨_, ways_and.mpr ⟨_, wl, rfl⟩, ?_⟩
            rw [e]
            simp only [List.map_append, List.map_cons, List.sum_append, List.sum_cons]
            omega
      · obtain ⟨i, hi⟩ := List.mem_iff_getElem?.mp hc
        have hsatg : sat Ac (.gate fl .or thr subs) = true := by
          simp only [sat, satL_eq, List.any_map, List.any_eq_true]; exact ⟨c, hc, a2⟩
        refine ⟨S, Ac, fun b hb => ?_, hsatg, fun t' ht => ?_⟩
        · rw [attrsOf_gate]; exact List.mem_flatMap.mpr ⟨c, hc, a1 b hb⟩
        · obtain ⟨subs', h1, h2⟩ := scans S Ac
          have h3 := scanL_each S _ (fun d hd => (hf d hd).1) h1
          have hany : subs'.any TNode.mark = true := by
            rw [any_map_mark, forall₂_map_eq h2 fun x y h => h.mark]
            simpa [sat, satL_eq] using hsatg
          obtain ⟨j, n, rest, d', -, g2, g3, -, g5⟩ := or_choice S h1 hany ht
          obtain ⟨d, d1, d2⟩ := forall₂_get h2 g2
          obtain ⟨d0, d3, d4⟩ := forall₂_get h3 g2
          rw [d1] at d3
          obtain rfl : d = d0 := by simpa using d3
          have hij : i = j := by
            by_contra hij
            have := sat_none' (hs d (List.mem_of_getElem? d1)) (A := Ac) fun b hb hB => attrs_disjoint hnd hij hi d1 b (a1 b hB) hb
            rw [← d2.mark, g3] at this; exact absurd this (by simp)
          subst hij
          rw [hi] at d1
          obtain rfl : c = d := by simpa using d1
          obtain ⟨m, m1, m2⟩ := a3 d' d4
          exact ⟨m, .one hc m1, by rw [g5]; exact m2⟩
    · have hkid : ∀ c ∈ subs, Clear c := fun c hc => by by_contra h; exact hkid ⟨c, hc, h⟩
      have hpair : ∃ (i j : Nat) (x y : TNode), i ≠ j ∧ subs[i]? = some x ∧ subs[j]? = some y ∧ ty = .or ∧ ¬ RightOrder x y := by
        by_contra hno
        apply hcl
        refine ⟨fun e => ?_, (ClearL_iff _).2 hkid⟩
        rw [List.pairwise_iff_getElem]
        intro i j hi hj hij
        constructor
        · by_contra h
          exact hno ⟨i, j, _, _, by omega, List.getElem?_eq_getElem hi, List.getElem?_eq_getElem hj, e, h⟩
        · by_contra h
          exact hno ⟨j, i, _, _, by omega, List.getElem?_eq_getElem hj, List.getElem?_eq_getElem hi, e, h⟩
      obtain ⟨i, j, x, y, hij, hi, hj, rfl, hro⟩ := hpair
      have hx := List.mem_of_getElem? hi
      have hy := List.mem_of_getElem? hj
      unfold RightOrder at hro
      push Not at hro
      obtain ⟨hle, n, m, hn, hm, hlt⟩ := hro
      obtain ⟨B, b1, b2, b3⟩ := unique_way x (hs x hx) ((List.nodup_flatMap.mp hnd).1 x hx) n hn
      obtain ⟨C, c1, c2, c3⟩ := unique_way y (hs y hy) ((List.nodup_flatMap.mp hnd).1 y hy) m hm
      have wx : Ways (· ∈ B ++ C) x n := ways_mono (fun z hz => List.mem_append.mpr (.inl hz)) b2
      have wy : Ways (· ∈ B ++ C) y m := ways_mono (fun z hz => List.mem_append.mpr (.inr hz)) c2
      have hsatg : sat (B ++ C) (.gate fl .or thr subs) = true := sat_of_ways (.one hx wx)
      refine ⟨prefer i, B ++ C, fun b hb => ?_, hsatg, fun t' ht => ⟨m, .one hy wy, ?_⟩⟩
      · rw [attrsOf_gate]
        rcases List.mem_append.mp hb with h | h
        · exact List.mem_flatMap.mpr ⟨x, hx, b1 b h⟩
        · exact List.mem_flatMap.mpr ⟨y, hy, c1 b h⟩
      · obtain ⟨subs', h1, h2⟩ := scans (prefer i) (B ++ C)
        have hany : subs'.any TNode.mark = true := by
          rw [any_map_mark, forall₂_map_eq h2 fun x y h => h.mark]
          simpa [sat, satL_eq] using hsatg
        obtain ⟨k, d, rest, z', g1, g2, g3, g4, g5⟩ := or_choice (prefer i) h1 hany ht
        obtain ⟨z, z1, z2⟩ := forall₂_get h2 g2
        have hzd : z'.direct = z.direct := by rw [← direct_reset, z2.same, direct_reset]
        obtain ⟨x', hx'⟩ : ∃ x', subs'[i]? = some x' := by
          have := (List.getElem?_eq_some_iff.mp hi).1
          rw [h2.length_eq] at this
          exact ⟨_, List.getElem?_eq_getElem this⟩
        obtain ⟨x0, e0, hxs⟩ := forall₂_get h2 hx'
        rw [hi] at e0
        obtain rfl : x = x0 := by simpa using e0
        have hmx : markAt subs' i = true := by rw [markAt_of_get hx', hxs.mark]; exact sat_of_ways wx
        obtain ⟨dx, hdx⟩ := orList_complete subs' 0 i hmx
        rw [Nat.zero_add] at hdx
        obtain ⟨x1, f1, f2⟩ := mem_orList_direct subs' 0 i dx hdx
        rw [Nat.sub_zero, hx'] at f1
        obtain rfl : x' = x1 := by simpa using f1
        have hdx' : x'.direct = x.direct := by rw [← direct_reset, hxs.same, direct_reset]
        have hk : k = i := by
          rcases prefer_head g1 hdx with h | h
          · exfalso
            by_cases hki : k = i
            · subst hki; rw [hx'] at g2; obtain rfl : x' = z' := by simpa using g2
              omega
            · by_cases hkj : k = j
              · subst hkj; rw [hj] at z1; obtain rfl : y = z := by simpa using z1
                omega
              · have := sat_none' (hs z (List.mem_of_getElem? z1)) (A := B ++ C) fun b hb hB => by
                  rcases List.mem_append.mp hB with h | h
                  · exact attrs_disjoint hnd (Ne.symm hki) hi z1 b (b1 b h) hb
                  · exact attrs_disjoint hnd (Ne.symm hkj) hj z1 b (c1 b h) hb
                rw [← z2.mark, g3] at this; exact absurd this (by simp)
          · exact h
        subst hk
        rw [hi] at z1
        obtain rfl : x = z := by simpa using z1
        have hw := way _ x z' (hs x hx) z2 g3
        have : taken z' = n := b3 _ (ways_congr x _ (fun l hl h => by
          rcases List.mem_append.mp h with h | h
          · exact h
          · exact absurd (c1 _ h) (attrs_disjoint hnd hij hi hj _ (mem_attrsOf hl))) hw)
        omega

end Abe
