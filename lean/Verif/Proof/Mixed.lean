import Verif.Spec.Mixed
import Verif.Proof.Compact
import Verif.Props.Parser
/-! # Lists that say several things about the same name -/
set_option linter.unusedSimpArgs false
set_option linter.unusedSectionVars false
set_option autoImplicit false
namespace Abe
namespace Mixed
variable {mk : Mktime}

/-! ### Bits of several values -/

theorem allBits_bit (V : List Nat) {i : Nat} (hi : i < 32) :
    (allBits V).testBit i = false ↔ ∃ v ∈ V, v.testBit i = false := by
  induction V with
  | nil =>
    have : (2 ^ 32 - 1).testBit i = true := by
      rw [Nat.testBit_two_pow_sub_one]; simpa using hi
    simp only [allBits, List.foldr_nil, this]
    simp
  | cons v V ih =>
    simp only [allBits, List.foldr_cons, Nat.testBit_and] at ih ⊢
    cases h : v.testBit i <;> simp [h, ih]

theorem anyBits_bit (V : List Nat) (i : Nat) : (anyBits V).testBit i = true ↔ ∃ v ∈ V, v.testBit i = true := by
  induction V with
  | nil => simp [anyBits]
  | cons v V ih =>
    simp only [anyBits, List.foldr_cons, Nat.testBit_or] at ih ⊢
    cases h : v.testBit i <;> simp [h, ih]

theorem allBits_le {V : List Nat} {v : Nat} (h : v ∈ V) : allBits V ≤ v := by
  induction V with
  | nil => cases h
  | cons u V ih =>
    simp only [allBits, List.foldr_cons] at ih ⊢
    rcases List.mem_cons.mp h with rfl | h
    · exact Nat.and_le_left
    · exact Nat.le_trans Nat.and_le_right (ih h)

theorem anyBits_lt {V : List Nat} {w : Nat} (h : ∀ v ∈ V, v < 2 ^ w) : anyBits V < 2 ^ w := by
  induction V with
  | nil => exact Nat.two_pow_pos w
  | cons u V ih =>
    exact Nat.or_lt_two_pow (h u (by simp)) (ih fun v hv => h v (by simp [hv]))

/-- The markers of one polarity are those of `v`. -/
def HasSide (A : List Bytes) (base : Bytes) (w : Nat) (gt : Bool) (v : Nat) : Prop :=
  ∀ i, i < 32 → (base ++ msuf w i gt ∈ A ↔ i < markerCount w ∧ v.testBit i = gt)

/-- The markers of the width `w` are those of the values `V`. -/
def HasVals (A : List Bytes) (base : Bytes) (w : Nat) (V : List Nat) : Prop :=
  (∀ v ∈ V, v < 2 ^ w) ∧
  ∀ i b, i < 32 → (base ++ msuf w i b ∈ A ↔ i < markerCount w ∧ ∃ v ∈ V, v.testBit i = b)

theorem HasVals.low {A : List Bytes} {base : Bytes} {w : Nat} {V : List Nat} (h : HasVals A base w V) :
    HasSide A base w false (allBits V) := by
  intro i hi
  rw [h.2 i false hi, allBits_bit V hi]

theorem HasVals.high {A : List Bytes} {base : Bytes} {w : Nat} {V : List Nat} (h : HasVals A base w V) :
    HasSide A base w true (anyBits V) := by
  intro i hi
  rw [h.2 i true hi, anyBits_bit V]

/-! ### Comparisons -/

theorem bitLoop_side {base : Bytes} {w n : Nat} {gt : Bool} (hb : noDbl true base = true) (hw : Width w) :
    ∀ (m i : Nat) (p : TNode) (d : Drv), i + m ≤ w →
      ∃ t d', bitLoop false gt base w n m i p d = .ok (t, d') ∧
        ∀ A v, HasSide A base w gt v → sat A p = below gt v n i → sat A t = below gt v n (i + m)
  | 0, i, p, d, _ => ⟨p, d, rfl, fun A v _ h => by simpa using h⟩
  | m + 1, i, p, d, him => by
    have hw32 : w ≤ 32 := by rcases hw with h | h | h | h <;> omega
    have hi : i < 32 := by omega
    obtain ⟨t1, d1, h1, h1s⟩ := marker_leaf (d := d) (b := gt) hb hw hi
    obtain ⟨t, d', h2, h2s⟩ := bitLoop_side hb hw (n := n) (gt := gt) m (i + 1)
      (kof2 (if gt then (if n.testBit i then 2 else 1) else (if n.testBit i then 1 else 2)) t1 p) d1 (by omega)
    refine ⟨t, d', ?_, ?_⟩
    · simp only [bitLoop, if_neg (show ¬ 32 ≤ i by omega), h1, Res.ok_bind]
      exact h2
    · intro A v hA hp
      rw [show i + (m + 1) = (i + 1) + m by omega]
      apply h2s A v hA
      have hmem : sat A t1 = decide (v.testBit i = gt) := by
        rw [h1s, decide_eq_decide, hA i hi]
        have : i < markerCount w := by unfold markerCount; split <;> omega
        simp [this]
      rw [below_succ]
      cases gt <;> cases hbit : n.testBit i <;>
        simp [sat_kof2_one, sat_kof2_two, hmem, hp, hbit]

theorem bitMarkerList_side {base : Bytes} {w : Nat} {gt : Bool} {n : UInt32} {j : Nat} (d : Drv)
    (hb : noDbl true base = true) (hw : Width w) (hj : runEnd gt n.toNat 32 0 = some j) :
    ∃ t d', bitMarkerList d false gt base w n = .ok (t, d') ∧
      (j < markerCount w → ∀ A v, HasSide A base w gt v →
        sat A t = below gt v n.toNat (max w (j + 1))) := by
  have hs := runEnd_spec gt n.toNat 32 0 j hj
  have hj32 : j < 32 := by omega
  obtain ⟨t1, d1, h1, h1s⟩ := marker_leaf (d := d) (b := gt) hb hw hj32
  by_cases hjw : j + 1 ≤ w
  · obtain ⟨t, d', h2, h2s⟩ := bitLoop_side hb hw (n := n.toNat) (gt := gt) (w - (j + 1)) (j + 1) t1 d1 (by omega)
    refine ⟨t, d', ?_, ?_⟩
    · simp only [bitMarkerList, hj, h1, Res.ok_bind]
      exact h2
    · intro hjm A v hA
      rw [show max w (j + 1) = j + 1 + (w - (j + 1)) by omega]
      apply h2s A v hA
      rw [h1s, below_first hs.2.2.1 (fun k hk => hs.2.2.2 k (Nat.zero_le _) hk), decide_eq_decide,
        hA j hj32]
      simp [hjm]
  · refine ⟨t1, d1, ?_, ?_⟩
    · simp only [bitMarkerList, hj, h1, Res.ok_bind]
      rw [show w - (j + 1) = 0 by omega]
      rfl
    · intro hjm A v hA
      rw [show max w (j + 1) = j + 1 by omega, h1s,
        below_first hs.2.2.1 (fun k hk => hs.2.2.2 k (Nat.zero_le _) hk), decide_eq_decide, hA j hj32]
      simp [hjm]

theorem ltPolicy_side {base : Bytes} {w : Nat} (hb : noDbl true base = true) (hw : Width w) (d : Drv)
    (n : UInt32) (h1 : 1 ≤ n.toNat) (hn : n.toNat ≤ 2 ^ w) :
    ∃ t d', ltPolicy d base ⟨n, w⟩ = .ok (t, d') ∧
      ∀ A v, HasSide A base w false v → v < 2 ^ w ∨ v = 2 ^ 32 - 1 → sat A t = decide (v < n.toNat) := by
  have hw0 : w ≠ 0 := by rcases hw with h | h | h | h <;> omega
  have h32 := n.toNat_lt
  cases hj : runEnd false n.toNat 32 0 with
  | none =>
    have := mod_of_low_false (v := n.toNat) (j := 32) (fun k hk => runEnd_none _ _ _ _ hj k (by omega) (by omega))
    omega
  | some j =>
    have hs := runEnd_spec _ _ _ _ _ hj
    obtain ⟨hjw, hlt⟩ := lt_lowest hn (by simpa using hs.2.2.1) (fun k hk => hs.2.2.2 k (by omega) hk)
    obtain ⟨t, d', h2, h2s⟩ := bitMarkerList_side d hb hw hj
    refine ⟨t, d', ?_, ?_⟩
    · simp only [ltPolicy, cmpPolicy, hw0, if_false, ne_eq, not_false_eq_true, if_true, decide_false]
      exact h2
    · intro A v hA hv
      have hjm : j < markerCount w := by unfold markerCount; split <;> omega
      rw [h2s hjm A v hA]
      simp only [below, Bool.false_eq_true, if_false]
      have hle : 2 ^ w ≤ 2 ^ max w (j + 1) := Nat.pow_le_pow_right (by decide) (by omega)
      have hn' : n.toNat < 2 ^ max w (j + 1) := by
        by_cases hc : j + 1 ≤ w
        · have := hlt hc; omega
        · have := Nat.pow_lt_pow_right (show 1 < 2 by decide) (show w < max w (j + 1) by omega)
          omega
      rw [Nat.mod_eq_of_lt hn']
      rcases hv with hv | rfl
      · rw [Nat.mod_eq_of_lt (show v < _ by omega)]
      · have hM : max w (j + 1) ≤ 32 := by
          have := width_le hw
          omega
        rw [decide_eq_decide]
        have e : (2 ^ 32 - 1) % 2 ^ max w (j + 1) = 2 ^ max w (j + 1) - 1 := by
          generalize max w (j + 1) = M at hM
          have : ∀ M : Fin 33, (2 ^ 32 - 1) % 2 ^ M.val = 2 ^ M.val - 1 := by decide +kernel
          exact this ⟨M, by omega⟩
        rw [e]
        have h2 : n.toNat < 4294967296 := h32
        constructor
        · intro h; omega
        · intro h; omega

theorem gtPolicy_side {base : Bytes} {w : Nat} (hb : noDbl true base = true) (hw : Width w) (d : Drv)
    (n : UInt32) (hn : n.toNat < 2 ^ w) (hmax : n.toNat < 2 ^ 32 - 1) :
    ∃ t d', gtPolicy d base ⟨n, w⟩ = .ok (t, d') ∧
      ∀ A v, HasSide A base w true v → v < 2 ^ w → sat A t = decide (n.toNat < v) := by
  have hw0 : w ≠ 0 := by rcases hw with h | h | h | h <;> omega
  cases hj : runEnd true n.toNat 32 0 with
  | none =>
    have := mod_of_low_true (v := n.toNat) (j := 32) (fun k hk => runEnd_none _ _ _ _ hj k (by omega) (by omega))
    omega
  | some j =>
    have hs := runEnd_spec _ _ _ _ _ hj
    have hjw := gt_lowest hn (fun k hk => hs.2.2.2 k (by omega) hk)
    obtain ⟨t, d', h2, h2s⟩ := bitMarkerList_side d hb hw hj
    refine ⟨t, d', ?_, ?_⟩
    · simp only [gtPolicy, cmpPolicy, hw0, if_false, ne_eq, not_false_eq_true, if_true, decide_false]
      exact h2
    · intro A v hA hv
      have hjm : j < markerCount w := by unfold markerCount; split <;> omega
      rw [h2s hjm A v hA]
      simp only [below, if_true]
      have hle : 2 ^ w ≤ 2 ^ max w (j + 1) := Nat.pow_le_pow_right (by decide) (by omega)
      rw [Nat.mod_eq_of_lt (show v < _ by omega), Nat.mod_eq_of_lt (show n.toNat < _ by omega)]

theorem lePolicy_side {base : Bytes} {w : Nat} (hb : noDbl true base = true) (hw : Width w) (d : Drv)
    (n : UInt32) (hn : n.toNat < 2 ^ w) (hmax : n.toNat < 2 ^ 32 - 1) :
    ∃ t d', lePolicy d base ⟨n, w⟩ = .ok (t, d') ∧
      ∀ A v, HasSide A base w false v → v < 2 ^ w ∨ v = 2 ^ 32 - 1 → sat A t = decide (v ≤ n.toNat) := by
  have ha := add1_toNat hmax
  obtain ⟨t, d', h, hs⟩ := ltPolicy_side hb hw d (n + 1) (by omega) (by omega)
  refine ⟨t, d', h, fun A v hA hv => ?_⟩
  rw [hs A v hA hv, ha, decide_eq_decide]
  omega

theorem gePolicy_side {base : Bytes} {w : Nat} (hb : noDbl true base = true) (hw : Width w) (d : Drv)
    (n : UInt32) (hn : n.toNat < 2 ^ w) (h1 : 1 ≤ n.toNat) :
    ∃ t d', gePolicy d base ⟨n, w⟩ = .ok (t, d') ∧
      ∀ A v, HasSide A base w true v → v < 2 ^ w → sat A t = decide (n.toNat ≤ v) := by
  have ha := sub1_toNat h1
  have h32 := n.toNat_lt
  obtain ⟨t, d', h, hs⟩ := gtPolicy_side hb hw d (n - 1) (by omega) (by omega)
  refine ⟨t, d', h, fun A v hA hv => ?_⟩
  rw [hs A v hA hv, ha, decide_eq_decide]
  omega

theorem eqLoop_vals {base : Bytes} {w n : Nat} (hb : noDbl true base = true) (hw : Width w) :
    ∀ (i : Nat) (p : TNode) (d : Drv), i ≤ w →
      ∃ t d', eqLoop false base w n i p d = .ok (t, d') ∧
        ∀ A V, HasVals A base w V →
          (sat A t = true ↔ sat A p = true ∧ ∀ k, k < i → ∃ v ∈ V, v.testBit k = n.testBit k)
  | 0, p, d, _ => ⟨p, d, rfl, fun A v _ => by simp⟩
  | i + 1, p, d, hi => by
    have hw32 : w ≤ 32 := by rcases hw with h | h | h | h <;> omega
    obtain ⟨t1, d1, h1, h1s⟩ := marker_leaf (d := d) (b := n.testBit i) hb hw (show i < 32 by omega)
    obtain ⟨t, d', h2, h2s⟩ := eqLoop_vals hb hw (n := n) i (kof2 2 p t1) d1 (by omega)
    refine ⟨t, d', ?_, ?_⟩
    · simp only [eqLoop, h1, Res.ok_bind]
      exact h2
    · intro A V hA
      have hmem : sat A t1 = true ↔ ∃ v ∈ V, v.testBit i = n.testBit i := by
        rw [h1s, decide_eq_true_eq, hA.2 i _ (by omega)]
        have : i < markerCount w := by unfold markerCount; split <;> omega
        simp [this]
      rw [h2s A V hA, sat_kof2_two, Bool.and_eq_true, hmem]
      constructor
      · rintro ⟨⟨hp, ha⟩, hb⟩
        refine ⟨hp, fun k hk => ?_⟩
        by_cases he : k = i
        · subst he; exact ha
        · exact hb k (by omega)
      · rintro ⟨hp, h⟩
        exact ⟨⟨hp, h i (by omega)⟩, fun k hk => h k (by omega)⟩

theorem eqPolicy_vals {base : Bytes} {w : Nat} (hb : noDbl true base = true) (hw : Width w) (d : Drv)
    (n : UInt32) :
    ∃ t d', eqPolicy d base ⟨n, w⟩ = .ok (t, d') ∧
      ∀ A V, HasVals A base w V →
        (sat A t = true ↔ ∀ i, i < w → ∃ v ∈ V, v.testBit i = n.toNat.testBit i) := by
  have hw32 : w ≤ 32 := by rcases hw with h | h | h | h <;> omega
  have hw0 : w ≠ 0 := by rcases hw with h | h | h | h <;> omega
  obtain ⟨t1, d1, h1, h1s⟩ := marker_leaf (d := d) (b := n.toNat.testBit (w - 1)) hb hw (show w - 1 < 32 by omega)
  obtain ⟨t, d', h2, h2s⟩ := eqLoop_vals hb hw (n := n.toNat) (w - 1) t1 d1 (by omega)
  refine ⟨t, d', ?_, ?_⟩
  · simp only [eqPolicy, hw0, if_false, ne_eq, not_false_eq_true, if_true, decide_false, h1, Res.ok_bind,
      Bool.false_eq_true]
    exact h2
  · intro A V hA
    have hmem : sat A t1 = true ↔ ∃ v ∈ V, v.testBit (w - 1) = n.toNat.testBit (w - 1) := by
      rw [h1s, decide_eq_true_eq, hA.2 (w - 1) _ (by omega)]
      have : w - 1 < markerCount w := by unfold markerCount; split <;> omega
      simp [this]
    rw [h2s A V hA, hmem]
    constructor
    · rintro ⟨ha, hb⟩ k hk
      by_cases h1 : k < w - 1
      · exact hb k h1
      · rw [show k = w - 1 by omega]; exact ha
    · intro h
      exact ⟨h _ (by omega), fun k hk => h k (by omega)⟩

theorem low_bound {w : Nat} {V : List Nat} (h : ∀ v ∈ V, v < 2 ^ w) : allBits V < 2 ^ w ∨ allBits V = 2 ^ 32 - 1 := by
  cases V with
  | nil => exact .inr rfl
  | cons v V => exact .inl (Nat.lt_of_le_of_lt (allBits_le (List.mem_cons_self ..)) (h v (by simp)))

/-- A condition on a number that may have several values. -/
theorem cond_vals {base : Bytes} (hb : NameOk base) {A : List Bytes} {vals : Nat → List Nat}
    (hA : ∀ w, Width w → HasVals A base w (vals w)) {c : NumCond} (hn : ∀ n ∈ c.nums, NumOk n) {d d' : Drv}
    {t : TNode} (h : c.compile d base = .ok (t, d')) : sat A t = true ↔ c.mixed vals := by
  have nb := hb.noDbl
  have key : ∀ {P : Prop}, (∃ t d', c.compile d base = .ok (t, d') ∧ (sat A t = true ↔ P)) → (sat A t = true ↔ P) := by
    rintro P ⟨t', d'', h', hs⟩
    rw [h] at h'; cases h'; exact hs
  have LT : ∀ (n : UInteger) (d : Drv), NumOk n → ∃ t d', ltPolicy d base n = .ok (t, d') ∧
      (sat A t = true ↔ allBits (vals n.bits) < n.val.toNat) := by
    intro n d ⟨h1, h2, h3, h4⟩
    obtain ⟨t, d', e, hs⟩ := ltPolicy_side nb h1 d n.val h3 (by omega)
    exact ⟨t, d', e, by rw [hs A _ (hA _ h1).low (low_bound (hA _ h1).1), decide_eq_true_eq]⟩
  have LE : ∀ (n : UInteger) (d : Drv), NumOk n → ∃ t d', lePolicy d base n = .ok (t, d') ∧
      (sat A t = true ↔ allBits (vals n.bits) ≤ n.val.toNat) := by
    intro n d ⟨h1, h2, h3, h4⟩
    obtain ⟨t, d', e, hs⟩ := lePolicy_side nb h1 d n.val h2 h4
    exact ⟨t, d', e, by rw [hs A _ (hA _ h1).low (low_bound (hA _ h1).1), decide_eq_true_eq]⟩
  have GT : ∀ (n : UInteger) (d : Drv), NumOk n → ∃ t d', gtPolicy d base n = .ok (t, d') ∧
      (sat A t = true ↔ n.val.toNat < anyBits (vals n.bits)) := by
    intro n d ⟨h1, h2, h3, h4⟩
    obtain ⟨t, d', e, hs⟩ := gtPolicy_side nb h1 d n.val h2 h4
    exact ⟨t, d', e, by rw [hs A _ (hA _ h1).high (anyBits_lt (hA _ h1).1), decide_eq_true_eq]⟩
  have GE : ∀ (n : UInteger) (d : Drv), NumOk n → ∃ t d', gePolicy d base n = .ok (t, d') ∧
      (sat A t = true ↔ n.val.toNat ≤ anyBits (vals n.bits)) := by
    intro n d ⟨h1, h2, h3, h4⟩
    obtain ⟨t, d', e, hs⟩ := gePolicy_side nb h1 d n.val h2 h3
    exact ⟨t, d', e, by rw [hs A _ (hA _ h1).high (anyBits_lt (hA _ h1).1), decide_eq_true_eq]⟩
  cases c with
  | lt n => exact key (LT n d (hn n (by simp [NumCond.nums])))
  | gt n => exact key (GT n d (hn n (by simp [NumCond.nums])))
  | le n => exact key (LE n d (hn n (by simp [NumCond.nums])))
  | ge n => exact key (GE n d (hn n (by simp [NumCond.nums])))
  | eq n =>
    have h1 := (hn n (by simp [NumCond.nums])).1
    obtain ⟨t, d', e, hs⟩ := eqPolicy_vals nb h1 d n.val
    exact key ⟨t, d', e, hs A _ (hA _ h1)⟩
  | inOpen lo hi =>
    obtain ⟨t1, d1, h1, hs1⟩ := GT lo d (hn lo (by simp [NumCond.nums]))
    obtain ⟨t2, d2, h2, hs2⟩ := LT hi d1 (hn hi (by simp [NumCond.nums]))
    refine key ⟨_, d2, by simp only [NumCond.compile, rangePolicy, h1, h2, Res.ok_bind]; rfl, ?_⟩
    rw [sat_and_pair, Bool.and_eq_true, hs1, hs2]
    rfl
  | inClosed lo hi =>
    obtain ⟨t1, d1, h1, hs1⟩ := GE lo d (hn lo (by simp [NumCond.nums]))
    obtain ⟨t2, d2, h2, hs2⟩ := LE hi d1 (hn hi (by simp [NumCond.nums]))
    refine key ⟨_, d2, by simp only [NumCond.compile, rangeInclPolicy, h1, h2, Res.ok_bind]; rfl, ?_⟩
    rw [sat_and_pair, Bool.and_eq_true, hs1, hs2]
    rfl

/-- A formula. -/
theorem expr_vals {A : List Bytes} {has : Bytes → Prop} {vals : Bytes → Nat → List Nat} :
    ∀ (e : Expr) (d d' : Drv) (t : TNode),
    e.valid = true → (∀ t ∈ e.toks, TokOk t) → e.DatesOk mk → e.NamesOk → (∀ s ∈ e.plain, s ∈ A ↔ has s) →
    (∀ c ∈ e.conds, ∀ w, Width w → HasVals A c.base w (vals c.base w)) →
    e.eval mk d = .ok (t, d') → (sat A t = true ↔ e.mixed mk has vals)
  | .leaf s, d, d', t, _, ht, _, hn, hp, _, h => by
    have hs : canonAux true s = true :=
      (hn.1 s (by simp [Expr.plain])).canon (name_ne_nil (ht (.leaf s) (by simp [Expr.toks])))
    rw [leafNode_canon_sat hs h, decide_eq_true_eq]
    exact hp s (by simp [Expr.plain])
  | .cond c, d, d', t, hv, ht, hd, hn, _, hA, h =>
    cond_vals (hn.2 c (by simp [Expr.conds])) (hA c (by simp [Expr.conds]))
      (CondSyn.numsOk hv ht (hd c (by simp [Expr.conds]))) h
  | .paren e, d, d', t, hv, ht, hd, hn, hp, hA, h =>
    expr_vals e d d' t hv (fun t h => ht t (by simp [Expr.toks, h])) hd hn hp hA h
  | .or l r, d, d', t, hv, ht, hd, hn, hp, hA, h => by
    simp only [Expr.valid, Bool.and_eq_true] at hv
    simp only [Expr.eval] at h
    obtain ⟨x, hx, h⟩ := (Res.bind_eq_ok _ _ _).mp h
    obtain ⟨y, hy, h⟩ := (Res.bind_eq_ok _ _ _).mp h
    cases h
    have i1 := expr_vals l d x.2 x.1 hv.1 (fun t h => ht t (by simp [Expr.toks, h])) (fun c h => hd c (by simp [Expr.conds, h]))
      ⟨fun s h => hn.1 s (by simp [Expr.plain, h]), fun s h => hn.2 s (by simp [Expr.conds, h])⟩
      (fun s h => hp s (by simp [Expr.plain, h])) (fun c h => hA c (by simp [Expr.conds, h])) hx
    have i2 := expr_vals r x.2 y.2 y.1 hv.2 (fun t h => ht t (by simp [Expr.toks, h])) (fun c h => hd c (by simp [Expr.conds, h]))
      ⟨fun s h => hn.1 s (by simp [Expr.plain, h]), fun s h => hn.2 s (by simp [Expr.conds, h])⟩
      (fun s h => hp s (by simp [Expr.plain, h])) (fun c h => hA c (by simp [Expr.conds, h])) hy
    rw [sat_kof2_one, Bool.or_eq_true, i1, i2]
    rfl
  | .and l r, d, d', t, hv, ht, hd, hn, hp, hA, h => by
    simp only [Expr.valid, Bool.and_eq_true] at hv
    simp only [Expr.eval] at h
    obtain ⟨x, hx, h⟩ := (Res.bind_eq_ok _ _ _).mp h
    obtain ⟨y, hy, h⟩ := (Res.bind_eq_ok _ _ _).mp h
    cases h
    have i1 := expr_vals l d x.2 x.1 hv.1 (fun t h => ht t (by simp [Expr.toks, h])) (fun c h => hd c (by simp [Expr.conds, h]))
      ⟨fun s h => hn.1 s (by simp [Expr.plain, h]), fun s h => hn.2 s (by simp [Expr.conds, h])⟩
      (fun s h => hp s (by simp [Expr.plain, h])) (fun c h => hA c (by simp [Expr.conds, h])) hx
    have i2 := expr_vals r x.2 y.2 y.1 hv.2 (fun t h => ht t (by simp [Expr.toks, h])) (fun c h => hd c (by simp [Expr.conds, h]))
      ⟨fun s h => hn.1 s (by simp [Expr.plain, h]), fun s h => hn.2 s (by simp [Expr.conds, h])⟩
      (fun s h => hp s (by simp [Expr.plain, h])) (fun c h => hA c (by simp [Expr.conds, h])) hy
    rw [sat_kof2_two, Bool.and_eq_true, i1, i2]
    rfl

/-! ### What stays of a list -/

theorem against_clash (i j : Item) : i.against j = clash i j := by cases i <;> cases j <;> rfl

theorem stays {x : Item} {Q1 Q2 : List Item} (h : x.blocked Q1 = false) : x ∈ kept [] (Q1 ++ x :: Q2) := by
  unfold kept
  rw [contrib_append]
  simp [contrib, h]

theorem first_split {p : Item → Bool} {P : List Item} {x : Item} (h : P.find? p = some x) :
    ∃ Q1 Q2, P = Q1 ++ x :: Q2 ∧ p x = true ∧ ∀ y ∈ Q1, p y = false := by
  obtain ⟨h1, Q1, Q2, h2, h3⟩ := List.find?_eq_some_iff_append.mp h
  exact ⟨Q1, Q2, h2, h1, fun y hy => by simpa using h3 y hy⟩

theorem blocked_iff (P : List Item) (i : Item) : i.blocked P = (kept [] P).any (·.against i) := by
  rw [Bool.eq_iff_iff]
  constructor
  · intro h
    rw [List.any_eq_true]
    cases i with
    | leaf s =>
      simp only [Item.blocked] at h
      rw [List.any_eq_true] at h
      have hf : (P.find? (Item.names s)).isSome := by
        rw [List.find?_isSome]; exact h
      obtain ⟨x, hx⟩ := Option.isSome_iff_exists.mp hf
      obtain ⟨Q1, Q2, rfl, hp, hq⟩ := first_split hx
      have hnone : Q1.find? (Item.names s) = none := by
        rw [List.find?_eq_none]; intro y hy; simp [hq y hy]
      rcases Item.names_eq hp with rfl | ⟨n, rfl⟩
      · exact ⟨_, stays (by simp only [Item.blocked]; rw [List.any_eq_false]; intro y hy; simp [hq y hy]), by simp [Item.against]⟩
      · exact ⟨_, stays (by simp only [Item.blocked, hnone]), by simp [Item.against]⟩
    | num s n =>
      simp only [Item.blocked] at h
      split at h
      · rename_i c hf
        have := find_names_shape hf
        simp at this
        subst this
        obtain ⟨Q1, Q2, rfl, hp, hq⟩ := first_split hf
        exact ⟨_, stays (by simp only [Item.blocked]; rw [List.any_eq_false]; intro y hy; simp [hq y hy]), by simp [Item.against]⟩
      · cases h
    | date p m d y =>
      simp only [Item.blocked] at h
      rw [List.any_eq_true, ← List.find?_isSome] at h
      obtain ⟨x, hx⟩ := Option.isSome_iff_exists.mp h
      obtain ⟨Q1, Q2, rfl, hp, hq⟩ := first_split hx
      cases x with
      | leaf => simp at hp
      | num => simp at hp
      | date q m' d' y' =>
        simp only [decide_eq_true_eq] at hp
        subst hp
        refine ⟨_, stays ?_, by simp [Item.against]⟩
        simp only [Item.blocked]
        rw [List.any_eq_false]
        intro y hy
        simp [hq y hy]
  · intro h
    obtain ⟨j, hj, hc⟩ := List.any_eq_true.mp h
    rw [against_clash] at hc
    obtain ⟨Q1, Q2, rfl, hb⟩ := mem_kept P [] hj
    cases hi : i.blocked (Q1 ++ j :: Q2) with
    | true => rfl
    | false =>
      rw [no_clash (by simpa using hb) hi] at hc
      cases hc

theorem kept_remaining : ∀ (is P : List Item), kept P is = remaining (kept [] P) is
  | [], P => rfl
  | i :: is, P => by
    have e : kept [] (P ++ [i]) = kept [] P ++ if i.blocked P then [] else [i] := by
      show contrib _ [] (P ++ [i]) = _
      rw [contrib_append]
      simp [contrib]
    have ih := kept_remaining is (P ++ [i])
    simp only [remaining]
    rw [← blocked_iff]
    show contrib _ P (i :: is) = _
    simp only [contrib]
    rw [show contrib (fun i => [i]) (P ++ [i]) is = _ from ih, e]
    by_cases hb : i.blocked P = true
    · simp [hb]
    · simp [hb]

theorem remaining_sub : ∀ (is K : List Item) (i : Item), i ∈ remaining K is → i ∈ is
  | [], _, _, h => by simp [remaining] at h
  | j :: is, K, i, h => by
    simp only [remaining] at h
    split at h
    · simp [remaining_sub is K i h]
    · rcases List.mem_cons.mp h with rfl | h
      · simp
      · simp [remaining_sub is _ i h]

/-- The strings of a list are those of the items that stay. -/
theorem attrs_remaining (is : List Item) (x : Bytes) :
    x ∈ contrib (Item.strings mk) [] is ↔ ∃ i ∈ remaining [] is, x ∈ i.strings mk := by
  rw [contrib_kept, List.mem_flatMap, kept_remaining]
  rfl

theorem mem_values {is : List Item} {base : Bytes} {w u : Nat} :
    u ∈ valuesOf mk is base w ↔ ∃ i ∈ is, ∃ v : UInt32, i.value mk = some (base, v, w) ∧ v.toNat = u := by
  unfold valuesOf
  rw [List.mem_filterMap]
  constructor
  · rintro ⟨i, hi, h⟩
    refine ⟨i, hi, ?_⟩
    cases hv : i.value mk with
    | none => rw [hv] at h; cases h
    | some y =>
      obtain ⟨b, v, w'⟩ := y
      rw [hv] at h
      simp only at h
      split at h
      · rename_i e
        obtain ⟨rfl, rfl⟩ := e
        exact ⟨v, rfl, by simpa using h⟩
      · cases h
  · rintro ⟨i, hi, v, hv, rfl⟩
    exact ⟨i, hi, by simp [hv]⟩

/-- The markers of a number are those of the values that its items give. -/
theorem items_vals {is : List Item} (hok : ∀ i ∈ is, i.Ok) {A : List Bytes}
    (hA : ∀ x, x ∈ A ↔ ∃ i ∈ is, x ∈ i.strings mk) {base : Bytes} (hb : ¬ b!"expint" <:+: base) {w : Nat} (hw : Width w) :
    HasVals A base w (valuesOf mk is base w) := by
  refine ⟨?_, ?_⟩
  · intro u hu
    obtain ⟨i, hi, v, hv, rfl⟩ := mem_values.mp hu
    exact (Item.value_ok (hok i hi) hv).2.1
  · intro k b hk
    have hpre : base ++ b!"_expint" <+: base ++ msuf w k b := by
      unfold msuf
      simp only [List.append_assoc]
      exact ⟨_, by simp only [List.append_assoc]; rfl⟩
    have k32 : ∀ {w' k'}, Width w' → k' < markerCount w' → k' < 32 := by
      intro w' k' hw' h
      unfold markerCount at h
      rcases hw' with e | e | e | e <;> subst e <;> simp at h <;> omega
    rw [hA]
    constructor
    · rintro ⟨i, hi, hs⟩
      obtain ⟨⟨v, w'⟩, hv⟩ := Item.strings_base (hok i hi) hb hs hpre
      obtain ⟨h1, h2, _, h4⟩ := Item.value_ok (hok i hi) hv
      rw [h4, mem_assignStmt h1 h2] at hs
      obtain ⟨k', hk', he⟩ := hs
      obtain ⟨rfl, rfl, hb'⟩ := msuf_inj hw h1 hk (k32 h1 hk') (List.append_cancel_left he)
      exact ⟨hk', _, mem_values.mpr ⟨i, hi, v, hv, rfl⟩, hb'.symm⟩
    · rintro ⟨hk', u, hu, he⟩
      obtain ⟨i, hi, v, hv, rfl⟩ := mem_values.mp hu
      obtain ⟨h1, h2, _, h4⟩ := Item.value_ok (hok i hi) hv
      exact ⟨i, hi, by rw [h4, mem_assignStmt h1 h2]; exact ⟨k, hk', by rw [he]⟩⟩

end Mixed
end Abe
