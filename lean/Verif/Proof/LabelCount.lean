import Verif.Proof.ParsedFacts
import Verif.Proof.LsssApi
import Verif.Proof.LsssCopy
import Mathlib.Data.List.Nodup
import Mathlib.Data.Finset.Card
import Mathlib.Data.Finset.Range
/-! # Which row labels of a parsed policy coincide -/
set_option linter.unusedSimpArgs false
set_option linter.unusedSectionVars false
set_option autoImplicit false
namespace Abe
variable {mk : Mktime}

/-- The driver's repetition bookkeeping is sound. -/
def DupSound (d : Drv) : Prop := (∀ c n, SMap.find c d.attrCount = some n → 1 ≤ n) ∧ ∀ c ∈ d.attrDup, 2 ≤ cnt d c

theorem leafNode_dupSound {d d' : Drv} {c : Bytes} {t : TNode} (h : leafNode d c = .ok (t, d')) (hd : DupSound d) :
    DupSound d' := by
  have hcnt := (leafNode_numbered h).2
  unfold leafNode at h
  obtain ⟨pa, hpa, hh⟩ := (Res.bind_eq_ok _ _ _).mp h
  clear h
  have key : ∃ n, 1 ≤ n ∧ d'.attrCount = SMap.insert c n d.attrCount := by
    cases hf : SMap.find c d.attrCount with
    | none =>
      rw [hf] at hh
      simp only [Res.ok.injEq, Prod.mk.injEq] at hh
      obtain ⟨rfl, hh⟩ := hh
      exact ⟨1, Nat.le_refl _, by rw [← hh]; split <;> rfl⟩
    | some n =>
      rw [hf] at hh
      simp only [Res.ok.injEq, Prod.mk.injEq] at hh
      obtain ⟨rfl, hh⟩ := hh
      exact ⟨n + 1, by omega, by rw [← hh]; split <;> rfl⟩
  have hdup : ∀ x ∈ d'.attrDup, x ∈ d.attrDup ∨ (x = c ∧ 1 ≤ cnt d c) := by
    cases hf : SMap.find c d.attrCount with
    | none =>
      rw [hf] at hh
      simp only [Res.ok.injEq, Prod.mk.injEq] at hh
      obtain ⟨rfl, hh⟩ := hh
      have had : d'.attrDup = d.attrDup := by rw [← hh]; split <;> rfl
      intro x hx
      rw [had] at hx
      exact .inl hx
    | some n =>
      rw [hf] at hh
      simp only [Res.ok.injEq, Prod.mk.injEq] at hh
      obtain ⟨rfl, hh⟩ := hh
      have had : d'.attrDup = sinsert c d.attrDup := by rw [← hh]; split <;> rfl
      intro x hx
      rw [had, mem_sinsert] at hx
      rcases hx with hx | hx
      · exact .inr ⟨hx, by have := hd.1 c n hf; simp [cnt, hf]; omega⟩
      · exact .inl hx
  obtain ⟨n, hn, hac⟩ := key
  refine ⟨?_, ?_⟩
  · intro c' m hm
    rw [hac, SMap.find_insert] at hm
    split at hm
    · cases hm; exact hn
    · exact hd.1 c' m hm
  · intro x hx
    rw [hcnt]
    rcases hdup x hx with h | ⟨rfl, h⟩
    · have := hd.2 x h; omega
    · simp; omega

theorem built_dupSound {d d' : Drv} {t : TNode} {cs : List Bytes} (h : Built d t d' cs) : DupSound d → DupSound d' := by
  induction h with
  | leaf h => exact leafNode_dupSound h
  | gate _ _ _ ih1 ih2 => exact fun hd => ih2 (ih1 hd)
  | gateR _ _ _ ih1 ih2 => exact fun hd => ih2 (ih1 hd)

theorem numbered_ne (a : Bytes) (i : Nat) : a ≠ a ++ b!"%" ++ natDec i := by
  intro h
  have e37 : (b!"%" : Bytes) = [37] := by decide
  have := congrArg List.length h
  rw [e37] at this
  simp only [List.length_append, List.length_cons, List.length_nil] at this
  omega

theorem count_filter_fst {L : List (Bytes × Nat)} (c : Bytes) :
    (L.filter fun x => x.1 = c).length = (L.map Prod.fst).count c := by
  induction L with
  | nil => rfl
  | cons x L ih =>
    by_cases h : x.1 = c
    · simp [h, ih]
    · simp [h, ih, List.count_cons]

/-- Distinct pairs, the second below the number of pairs with that first: all of them occur. -/
theorem numbered_all {L : List (Bytes × Nat)} (hn : L.Nodup) (hb : ∀ x ∈ L, x.2 < (L.map Prod.fst).count x.1)
    (c : Bytes) (i : Nat) (hi : i < (L.map Prod.fst).count c) : (c, i) ∈ L := by
  let M := (L.filter fun x => x.1 = c).map Prod.snd
  have hMn : M.Nodup := by
    refine List.Nodup.map_on ?_ (hn.filter _)
    intro x hx y hy hxy
    have h1 := (List.mem_filter.mp hx).2
    have h2 := (List.mem_filter.mp hy).2
    simp only [decide_eq_true_eq] at h1 h2
    exact Prod.ext (h1.trans h2.symm) hxy
  have hsub : M.toFinset ⊆ Finset.range ((L.map Prod.fst).count c) := by
    intro j hj
    obtain ⟨x, hx, rfl⟩ := List.mem_map.mp (List.mem_toFinset.mp hj)
    obtain ⟨h1, h2⟩ := List.mem_filter.mp hx
    simp only [decide_eq_true_eq] at h2
    rw [Finset.mem_range, ← h2]
    exact hb x h1
  have heq := Finset.eq_of_subset_of_card_le hsub (by
    rw [Finset.card_range, List.toFinset_card_of_nodup hMn, List.length_map, count_filter_fst])
  have : i ∈ M.toFinset := by rw [heq]; exact Finset.mem_range.mpr hi
  obtain ⟨x, hx, hxi⟩ := List.mem_map.mp (List.mem_toFinset.mp this)
  obtain ⟨h1, h2⟩ := List.mem_filter.mp hx
  simp only [decide_eq_true_eq] at h2
  have : x = (c, i) := Prod.ext h2 hxi
  exact this ▸ h1

/-- Labels from pairs of text and occurrence. -/
def pairLabel (ls : List Bytes) (x : Bytes × Nat) : Bytes :=
  if 2 ≤ ls.count x.1 then x.1 ++ b!"%" ++ natDec x.2 else x.1

theorem pairLabel_nodup {L : List (Bytes × Nat)} (hn : L.Nodup) (hb : ∀ x ∈ L, x.2 < (L.map Prod.fst).count x.1) :
    (L.map (pairLabel (L.map Prod.fst))).Nodup ↔
      ∀ a i, 2 ≤ (L.map Prod.fst).count a → i < (L.map Prod.fst).count a →
        (L.map Prod.fst).count (a ++ b!"%" ++ natDec i) ≠ 1 := by
  rw [List.nodup_map_iff_inj_on hn]
  constructor
  · intro h a i h2 hi h1
    have m1 := numbered_all hn hb a i hi
    have m2 := numbered_all hn hb (a ++ b!"%" ++ natDec i) 0 (by omega)
    have := h _ m1 _ m2 (by
      simp only [pairLabel]
      rw [if_pos h2, if_neg (by omega)])
    exact numbered_ne a i (congrArg Prod.fst this)
  · intro h x hx y hy hxy
    have bx := hb x hx
    have by' := hb y hy
    simp only [pairLabel] at hxy
    split at hxy <;> split at hxy
    · obtain ⟨h1, h2⟩ := numbered_inj hxy
      exact Prod.ext h1 h2
    · rename_i h2 h1
      rw [← hxy] at h1 by'
      exact absurd (by omega) (h x.1 x.2 h2 bx)
    · rename_i h1 h2
      rw [hxy] at h1 bx
      exact absurd (by omega) (h y.1 y.2 h2 by')
    · rename_i h1 h2
      rw [← hxy] at by'
      exact Prod.ext hxy (by omega)

/-- Labels of a tree built by the driver, from the texts alone. -/
theorem built_labels {d' : Drv} {s : Bytes} {t : TNode} {cs : List Bytes} (h : Built { input := s } t d' cs)
    (hc : ∀ c ∈ cs, canonAux true c = true) :
    (((leaves t).map (uniqueLabel (dupInfo d'.attrCount d'.attrDup))).Nodup ↔
      ∀ a i, 2 ≤ ((leaves t).map Leaf.label).count a → i < ((leaves t).map Leaf.label).count a →
        ((leaves t).map Leaf.label).count (a ++ b!"%" ++ natDec i) ≠ 1) := by
  obtain ⟨⟨L, hn, hp⟩, hcnt⟩ := built_numbered h
  have hds := built_dupSound h ⟨by intro c n h; simp [SMap.find] at h, by simp⟩
  have hcL : ∀ x ∈ L, canonAux true x.1 = true :=
    fun x hx => hc _ (hp.subset (List.mem_map_of_mem (f := Prod.fst) hx))
  have h0 : ∀ c, cnt d' c = (L.map Prod.fst).count c := by
    intro c
    rw [hcnt, hp.count_eq]
    simp [cnt, SMap.find]
  have hb : ∀ x ∈ L, x.2 < (L.map Prod.fst).count x.1 := fun x hx => by rw [← h0]; exact (hn.2.2.1 x hx).2
  have hlab : ∀ {M : List (Bytes × Nat)} {N : List Leaf}, List.Forall₂ IsLeafOf M N → (∀ x ∈ M, x ∈ L) →
      N.map Leaf.label = M.map Prod.fst ∧
      N.map (uniqueLabel (dupInfo d'.attrCount d'.attrDup)) = M.map (pairLabel (L.map Prod.fst)) := by
    intro M N hf
    induction hf with
    | nil => intro _; exact ⟨rfl, rfl⟩
    | @cons x l M N h1 _ ih =>
      intro hm
      obtain ⟨i1, i2⟩ := ih (fun y hy => hm y (by simp [hy]))
      have hx := hm x (by simp)
      have hl := leafOf_label (hcL x hx) h1
      refine ⟨by rw [List.map_cons, List.map_cons, i1, hl], ?_⟩
      rw [List.map_cons, List.map_cons, i2]
      congr 1
      have hd : (SMap.find l.label (dupInfo d'.attrCount d'.attrDup)).isSome ↔ 2 ≤ (L.map Prod.fst).count x.1 := by
        rw [find_dupInfo, hl]
        constructor
        · intro hm; have := hds.2 _ hm; rw [h0] at this; exact this
        · intro h2
          have := numbered_all hn.2.1 hb x.1 1 (by omega)
          exact hn.2.2.2.2.2 (x.1, 1) this (Nat.le_refl _)
      unfold uniqueLabel pairLabel
      by_cases h2 : 2 ≤ (L.map Prod.fst).count x.1
      · rw [if_pos h2]
        have := hd.mpr h2
        obtain ⟨n, hn'⟩ := Option.isSome_iff_exists.mp this
        rw [hn', hl, h1.2]
        rfl
      · rw [if_neg h2]
        have : SMap.find l.label (dupInfo d'.attrCount d'.attrDup) = none := by
          cases hf : SMap.find l.label (dupInfo d'.attrCount d'.attrDup) with
          | none => rfl
          | some n => exact absurd (hd.mp (by rw [hf]; rfl)) h2
        rw [this, hl]
        rfl
  obtain ⟨e1, e2⟩ := hlab hn.1 (fun x hx => hx)
  rw [e1, e2]
  exact pairLabel_nodup hn.2.1 hb

/-- A map that rows were added to has as many entries as there are different labels. -/
theorem addRows_keys {α : Type} (l : List (Bytes × α)) (k : Bytes) :
    k ∈ (SMap.addRows ([] : SMap α) l).map Prod.fst ↔ k ∈ l.map Prod.fst := by
  constructor
  · intro hk
    obtain ⟨x, hx, rfl⟩ := List.mem_map.mp hk
    rcases SMap.mem_addRows l _ x hx with h | h
    · exact List.mem_map_of_mem (f := Prod.fst) h
    · cases h
  · intro hk
    have key : ∀ (l : List (Bytes × α)) (m : SMap α), k ∈ l.map Prod.fst ∨ (SMap.find k m).isSome →
        (SMap.find k (SMap.addRows m l)).isSome := by
      intro l
      induction l with
      | nil => intro m h; simpa [SMap.addRows] using h
      | cons x l ih =>
        intro m h
        simp only [SMap.addRows]
        apply ih
        by_cases hx : k = x.1
        · right; rw [SMap.find_insert, if_pos hx]; rfl
        · rcases h with h | h
          · left; simpa [hx] using h
          · right; rw [SMap.find_insert, if_neg hx]; exact h
    obtain ⟨v, hv⟩ := Option.isSome_iff_exists.mp (key l [] (.inl hk))
    exact List.mem_map.mpr ⟨(k, v), SMap.mem_of_find hv, rfl⟩

theorem addRows_length {α : Type} (l : List (Bytes × α)) :
    (SMap.addRows ([] : SMap α) l).length = (l.map Prod.fst).toFinset.card := by
  have hs := SMap.sorted_addRows l ([] : SMap α) SMap.sorted_nil
  rw [← List.length_map (f := Prod.fst), ← List.toFinset_card_of_nodup (SMap.nodup_keys hs)]
  congr 1
  ext k
  simp only [List.mem_toFinset]
  exact addRows_keys l k

/-! ### Names with colons -/

theorem joinColon_length : ∀ (s cur : Bytes), (joinColon (splitAux 58 cur s)).length ≤ cur.length + s.length
  | [], cur => by
    by_cases h : cur = []
    · simp [splitAux, h, joinColon]
    · simp [splitAux, h, joinColon]
  | c :: cs, cur => by
    by_cases hc : c = 58
    · subst hc
      have ih := joinColon_length cs []
      simp only [List.length_nil, Nat.zero_add] at ih
      by_cases h : cur = []
      · simp only [splitAux, if_true, h, List.length_cons, List.length_nil]; omega
      · simp only [splitAux, if_true, if_neg h]
        cases hs : splitAux 58 [] cs with
        | nil => simp [joinColon]
        | cons x xs =>
          rw [hs] at ih
          simp only [joinColon, List.length_append, List.length_cons, List.length_nil] at ih ⊢
          omega
    · have ih := joinColon_length cs (cur ++ [c])
      simp only [splitAux, if_neg hc]
      simp only [List.length_append, List.length_cons, List.length_nil] at ih ⊢
      omega

theorem joinColon_conv : ∀ (s cur : Bytes), joinColon (splitAux 58 cur s) = cur ++ s →
    cur ++ s = [] ∨ canonAux (decide (cur = [])) s = true
  | [], cur, _ => by
    by_cases h : cur = []
    · left; simp [h]
    · right; simp [canonAux, h]
  | c :: cs, cur, h => by
    by_cases hc : c = 58
    · subst hc
      right
      by_cases h0 : cur = []
      · subst h0
        have := joinColon_length cs []
        simp only [splitAux, if_true, List.nil_append] at h
        rw [h] at this
        simp at this
      · simp only [splitAux, if_true, if_neg h0] at h
        cases hs : splitAux 58 [] cs with
        | nil =>
          rw [hs] at h
          have := congrArg List.length h
          simp [joinColon] at this
        | cons x xs =>
          rw [hs] at h
          simp only [joinColon, List.append_assoc, List.append_cancel_left_eq] at h
          have h' : joinColon (splitAux 58 [] cs) = [] ++ cs := by
            rw [hs]
            simpa using h
          rcases joinColon_conv cs [] h' with h1 | h1
          · simp at h1
            subst h1
            simp [splitAux] at hs
          · simp only [canonAux, if_true, Bool.and_eq_true]
            exact ⟨by simp [h0], by simpa using h1⟩
    · simp only [splitAux, if_neg hc] at h
      rcases joinColon_conv cs (cur ++ [c]) (by simpa using h) with h1 | h1
      · simp at h1
      · right
        simpa [canonAux, hc] using h1

theorem splitAux_word : ∀ (p cur u : Bytes), (58 : UInt8) ∉ p → cur ++ p ≠ [] →
    splitAux 58 cur (p ++ 58 :: u) = (cur ++ p) :: splitAux 58 [] u
  | [], cur, u, _, h => by
    have : cur ≠ [] := by simpa using h
    simp [splitAux, this]
  | c :: p, cur, u, hp, _ => by
    have hc : c ≠ 58 := fun h => hp (by simp [h])
    rw [List.cons_append]
    simp only [splitAux, if_neg hc]
    rw [splitAux_word p (cur ++ [c]) u (fun h => hp (by simp [h])) (by simp)]
    simp

/-- Every name gives a leaf; its label is the name itself exactly when no part of the name is empty, or there
is just one colon and it is the last byte. -/
theorem name_label {s : Bytes} (hs : isName s = true) : ∃ p a, checkAttribute s = .ok (p, a) ∧
    (completeLabel p a = s ↔ canonAux true s = true ∨ ∃ q, s = q ++ [58] ∧ (58 : UInt8) ∉ q) := by
  obtain ⟨b, w, rfl⟩ : ∃ b w, s = b :: w := by
    cases s with
    | nil => simp [isName] at hs
    | cons b w => exact ⟨b, w, rfl⟩
  have hb : b ≠ 58 := by
    rintro rfl
    simp [isName, isStart] at hs
  by_cases hm : (58 : UInt8) ∈ b :: w
  · obtain ⟨q, u, hq, h58⟩ : ∃ q u, b :: w = q ++ 58 :: u ∧ (58 : UInt8) ∉ q := by
      obtain ⟨q, u, h⟩ := List.append_of_mem hm
      clear hs hb
      generalize b :: w = l at hm
      induction l with
      | nil => cases hm
      | cons x l ih =>
        by_cases hx : x = 58
        · exact ⟨[], l, by simp [hx], by simp⟩
        · obtain ⟨q, u, h1, h2⟩ := ih (by simpa [Ne.symm hx] using hm)
          exact ⟨x :: q, u, by simp [h1], by simp [h2, Ne.symm hx]⟩
    have hq0 : q ≠ [] := by
      rintro rfl
      simp at hq
      exact hb hq.1
    refine ⟨q, joinColon (splitAux 58 [] u), ?_, ?_⟩
    · unfold checkAttribute
      rw [if_pos hm]
      simp only [split, hq]
      rw [splitAux_word q [] u h58 (by simpa using hq0)]
      rfl
    · have hlab : completeLabel q (joinColon (splitAux 58 [] u)) = q ++ 58 :: joinColon (splitAux 58 [] u) := by
        simp [completeLabel, hq0]
      have hcan : ∀ (q : Bytes) (p : Bool), (58 : UInt8) ∉ q → q ≠ [] → canonAux p (q ++ 58 :: u) = canonAux true u := by
        intro q
        induction q with
        | nil => intro p _ h; exact absurd rfl h
        | cons x q ih =>
          intro p h _
          have hx : x ≠ 58 := fun e => h (by simp [e])
          by_cases hq : q = []
          · subst hq; simp [canonAux, hx]
          · rw [List.cons_append]
            simp only [canonAux, if_neg hx]
            exact ih false (fun e => h (by simp [e])) hq
      rw [hlab, hq, hcan q true h58 hq0]
      constructor
      · intro h
        have h' : joinColon (splitAux 58 [] u) = [] ++ u := by simpa using h
        rcases joinColon_conv u [] h' with h1 | h1
        · right; exact ⟨q, by simp at h1; rw [h1], h58⟩
        · left; simpa using h1
      · rintro (h | ⟨r, hr, hr58⟩)
        · rw [(splitAux_join u [] (by simpa using h)).2]; simp
        · obtain ⟨_, h2⟩ := split_unique (x := u) (y := []) h58 hr58 hr
          subst h2
          simp [splitAux, joinColon]
  · refine ⟨[], b :: w, by unfold checkAttribute; rw [if_neg hm], ?_⟩
    have : canonAux true (b :: w) = true := by
      have key : ∀ (l : Bytes) (p : Bool), (58 : UInt8) ∉ l → (p = false ∨ l ≠ []) → canonAux p l = true := by
        intro l
        induction l with
        | nil => intro p _ h; simpa [canonAux] using h
        | cons x l ih =>
          intro p h _
          have hx : x ≠ 58 := fun e => h (by simp [e])
          simp only [canonAux, if_neg hx]
          exact ih false (fun e => h (by simp [e])) (.inl rfl)
      exact key _ _ hm (.inr (by simp))
    simp [completeLabel, this]

theorem canonAux_conv : ∀ (s : Bytes) (p : Bool), canonAux p s = true →
    (p = true → s.head? ≠ some 58) ∧ ¬ [58, 58] <:+: s ∧ s.getLast? ≠ some 58
  | [], p, _ => by simp
  | c :: cs, p, h => by
    by_cases hc : c = 58
    · subst hc
      simp only [canonAux, if_true, Bool.and_eq_true, Bool.not_eq_true'] at h
      obtain ⟨h1, h2, h3⟩ := canonAux_conv cs true h.2
      refine ⟨by simp [h.1], ?_, ?_⟩
      · rw [List.infix_cons_iff, not_or]
        refine ⟨?_, h2⟩
        rw [List.cons_prefix_cons, not_and]
        intro _ hp
        obtain ⟨r, hr⟩ := hp
        exact h1 rfl (by rw [← hr]; rfl)
      · cases cs with
        | nil => simp [canonAux] at h
        | cons x xs => rw [List.getLast?_cons_cons]; exact h3
    · simp only [canonAux, if_neg hc] at h
      obtain ⟨_, h2, h3⟩ := canonAux_conv cs false h
      refine ⟨by simp [hc], ?_, ?_⟩
      · rw [List.infix_cons_iff, not_or]
        refine ⟨?_, h2⟩
        rw [List.cons_prefix_cons, not_and]
        intro e
        exact absurd e.symm hc
      · cases cs with
        | nil => simpa using hc
        | cons x xs => rw [List.getLast?_cons_cons]; exact h3

theorem plainOk_iff {s : Bytes} (h0 : s ≠ []) : PlainOk s ↔ canonAux true s = true :=
  ⟨fun h => h.canon h0, fun h => let ⟨h1, h2, h3⟩ := canonAux_conv s true h; ⟨⟨h1 rfl, h2⟩, h3⟩⟩

/-- Labels of a parsed policy. -/
theorem parsed_labels {s : Bytes} {e : Expr} (h : PolicyText mk s e) {p : Policy} {t : TNode}
    (hp : createPolicyTree mk s = .ok (some p)) (ht : p.root = some t) :
    (((leaves t).map (uniqueLabel (if p.hasDup then p.dupCount else []))).Nodup ↔
      ∀ a i, 2 ≤ ((leaves t).map Leaf.label).count a → i < ((leaves t).map Leaf.label).count a →
        ((leaves t).map Leaf.label).count (a ++ b!"%" ++ natDec i) ≠ 1) := by
  obtain ⟨t', d', p', h1, h2, h3, h4, h5, _, _, h8, h9, h10⟩ := createPolicyTree_ok mk h.canon h.valid h.toks h.dates
  rw [hp] at h1
  cases h1
  rw [ht] at h3
  cases h3
  obtain ⟨cs, hb, hcs⟩ := e.eval_built _ _ _ h.valid h2
  rw [dup_eq h4 h5]
  exact built_labels hb (fun c hc => e.text_canon h10 h.names (hcs c hc))

/-- The attributes the driver notes as repeated are those that occur at least twice. -/
theorem built_dup {d' : Drv} {s : Bytes} {t : TNode} {cs : List Bytes} (h : Built { input := s } t d' cs)
    (hc : ∀ c ∈ cs, canonAux true c = true) (c : Bytes) :
    c ∈ d'.attrDup ↔ 2 ≤ ((leaves t).map Leaf.label).count c := by
  obtain ⟨⟨L, hn, hp⟩, hcnt⟩ := built_numbered h
  have hds := built_dupSound h ⟨by intro c n h; simp [SMap.find] at h, by simp⟩
  have hcL : ∀ x ∈ L, canonAux true x.1 = true :=
    fun x hx => hc _ (hp.subset (List.mem_map_of_mem (f := Prod.fst) hx))
  have h0 : ∀ c, cnt d' c = (L.map Prod.fst).count c := by
    intro c
    rw [hcnt, hp.count_eq]
    simp [cnt, SMap.find]
  have hb : ∀ x ∈ L, x.2 < (L.map Prod.fst).count x.1 := fun x hx => by rw [← h0]; exact (hn.2.2.1 x hx).2
  have hlab : ∀ {M : List (Bytes × Nat)} {N : List Leaf}, List.Forall₂ IsLeafOf M N → (∀ x ∈ M, x ∈ L) →
      N.map Leaf.label = M.map Prod.fst := by
    intro M N hf
    induction hf with
    | nil => intro _; rfl
    | @cons x l M N h1 _ ih =>
      intro hm
      rw [List.map_cons, List.map_cons, ih (fun y hy => hm y (by simp [hy])), leafOf_label (hcL x (hm x (by simp))) h1]
  rw [hlab hn.1 (fun x hx => hx), ← h0]
  constructor
  · exact hds.2 c
  · intro h2
    rw [h0] at h2
    exact hn.2.2.2.2.2 (c, 1) (numbered_all hn.2.1 hb c 1 (by omega)) (Nat.le_refl _)

/-- Repetitions of a parsed policy. -/
theorem parsed_dup {s : Bytes} {e : Expr} (h : PolicyText mk s e) {p : Policy} {t : TNode}
    (hp : createPolicyTree mk s = .ok (some p)) (ht : p.root = some t) :
    (∀ c, (SMap.find c (if p.hasDup then p.dupCount else [])).isSome ↔ 2 ≤ ((leaves t).map Leaf.label).count c) ∧
      (p.hasDup = true ↔ ¬ ((leaves t).map Leaf.label).Nodup) := by
  obtain ⟨t', d', p', h1, h2, h3, h4, h5, _, _, h8, h9, h10⟩ := createPolicyTree_ok mk h.canon h.valid h.toks h.dates
  rw [hp] at h1
  cases h1
  rw [ht] at h3
  cases h3
  obtain ⟨cs, hb, hcs⟩ := e.eval_built _ _ _ h.valid h2
  have hd := built_dup hb (fun c hc => e.text_canon h10 h.names (hcs c hc))
  refine ⟨fun c => by rw [dup_eq h4 h5, find_dupInfo, hd], ?_⟩
  rw [h4, decide_eq_true_eq, List.nodup_iff_count_le_one]
  constructor
  · intro h0 hcon
    obtain ⟨c, hc⟩ := List.exists_mem_of_ne_nil _ h0
    have := (hd c).mp hc
    have := hcon c
    omega
  · intro hcon h0
    apply hcon
    intro c
    by_contra hc
    have := (hd c).mpr (by omega)
    rw [h0] at this
    cases this

/-- A repeated attribute without an index stops the recording of shares. -/
theorem addAll_ub {F : Type} [Field F] [DecidableEq F] : ∀ (rows : List (Leaf × F)) (o : LSSS F),
    (∃ x ∈ rows, (SMap.find x.1.label o.attrCount).isSome ∧ x.1.idx = none) → addAll o rows = .ub
  | [], o, h => by simp at h
  | (l, v) :: rest, o, h => by
    by_cases hb : (SMap.find l.label o.attrCount).isSome ∧ l.idx = none
    · have : makeUniqueLabel o.attrCount l.pre l.lab l.idx = .ub := by
        unfold makeUniqueLabel
        have h1 : (SMap.find (completeLabel l.pre l.lab) o.attrCount).isSome = true := hb.1
        simp only []
        rw [if_pos h1, hb.2]
      simp only [addAll, addShare, this]
      rfl
    · have hr : ∃ x ∈ rest, (SMap.find x.1.label o.attrCount).isSome ∧ x.1.idx = none := by
        obtain ⟨x, hx, h2⟩ := h
        rcases List.mem_cons.mp hx with rfl | hx
        · exact absurd h2 hb
        · exact ⟨x, hx, h2⟩
      simp only [addAll, addShare]
      cases hu : makeUniqueLabel o.attrCount l.pre l.lab l.idx with
      | ok u =>
        simp only [Res.ok_bind]
        exact addAll_ub rest _ hr
      | throw e =>
        unfold makeUniqueLabel at hu
        simp only [] at hu
        split at hu
        · split at hu <;> cases hu
        · cases hu
      | ub => rfl
      | abort =>
        unfold makeUniqueLabel at hu
        simp only [] at hu
        split at hu
        · split at hu <;> cases hu
        · cases hu

/-- Sharing under a policy with a repeated attribute and no indices is undefined. -/
theorem shareSecret_ub {F : Type} [Field F] [DecidableEq F] (o : LSSS F) (p : Policy) (t : TNode) (s : F) (tape : Nat → F)
    (hr : p.root = some t) (hp : PosGates t)
    (hi : ∃ l ∈ leaves t, (SMap.find l.label (effCount o p)).isSome ∧ l.idx = none) :
    shareSecret false o (some p) s tape = .ub := by
  have h := shareLoop_eq tape t hp 0 [] s 0 ({ results := [], attrCount := effCount o p } : LSSS F)
  rw [Nat.add_zero] at h
  have e : shareSecret false o (some p) s tape = shareLoop false tape t.size [(t, s)] 0
      { results := [], attrCount := effCount o p } := by
    simp only [shareSecret, hr]; rfl
  obtain ⟨l, hl, h1, h2⟩ := hi
  have hm : l ∈ (emit tape t s 0).map Prod.fst := by
    rw [emit_fst]; exact (rleaves_perm t).mem_iff.mpr hl
  obtain ⟨x, hx, rfl⟩ := List.mem_map.mp hm
  rw [e, h, addAll_ub _ _ ⟨x, hx, h1, h2⟩]
  rfl

end Abe
