import Verif.Proof.Driver
/-! # Comparison trees: meaning and shape -/
set_option linter.unusedSimpArgs false
set_option linter.unusedSectionVars false
set_option autoImplicit false
namespace Abe

/-! ## Leaves and gates -/

theorem leafNode_of_check {d : Drv} {c p a : Bytes} (h : checkAttribute c = .ok (p, a)) :
    ∃ i d', leafNode d c = .ok (.leaf {} p a (some i), d') := by
  unfold leafNode
  simp only [h, Res.ok_bind]
  exact ⟨_, _, rfl⟩

theorem leafNode_canon {d : Drv} {c : Bytes} (h : canonAux true c = true) :
    ∃ t d', leafNode d c = .ok (t, d') ∧ ∀ A, sat A t = decide (c ∈ A) := by
  obtain ⟨p, a, h1, h2⟩ := checkAttribute_canon h
  obtain ⟨i, d', h3⟩ := leafNode_of_check (d := d) h1
  exact ⟨_, d', h3, fun A => by simp [sat, h2]⟩

theorem sat_kof2_one (A : List Bytes) (l r : TNode) : sat A (kof2 1 l r) = (sat A l || sat A r) := by
  simp [kof2, sat, satL]

theorem sat_kof2_two (A : List Bytes) (l r : TNode) : sat A (kof2 2 l r) = (sat A l && sat A r) := by
  simp [kof2, sat, satL]

/-- A tree produced by the driver: leaves by `leafNode`, binary gates by `kof2`, in either order. The
last argument lists the texts of the leaves in the order they were built. -/
inductive Built : Drv → TNode → Drv → List Bytes → Prop
  | leaf {d c t d'} : leafNode d c = .ok (t, d') → Built d t d' [c]
  | gate {d l d1 r d2 cs1 cs2 k} : Built d l d1 cs1 → Built d1 r d2 cs2 → (k = 1 ∨ k = 2) →
      Built d (kof2 k l r) d2 (cs1 ++ cs2)
  | gateR {d r d1 l d2 cs1 cs2 k} : Built d r d1 cs1 → Built d1 l d2 cs2 → (k = 1 ∨ k = 2) →
      Built d (kof2 k l r) d2 (cs1 ++ cs2)

/-! ## Names of numeric attributes -/

/-- The list `A` gives the numeric attribute `base` exactly the value `v` with width `w`. -/
def HasBits (A : List Bytes) (base : Bytes) (w v : Nat) : Prop :=
  ∀ i b, i < 32 → (base ++ msuf w i b ∈ A ↔ i < markerCount w ∧ v.testBit i = b)

theorem marker_leaf {d : Drv} {base : Bytes} {w bit : Nat} {b : Bool} (hb : noDbl true base = true)
    (hw : Width w) (hbit : bit < 32) :
    ∃ t d', leafNode d (bitMarker false base bit b w) = .ok (t, d') ∧
      ∀ A, sat A t = decide (base ++ msuf w bit b ∈ A) := by
  rw [bitMarker_eq]
  have := msuf_facts w hw.mem bit hbit b
  exact leafNode_canon (canonAux_append this.1 this.2 base true hb)

/-! ## The search for the first bit -/

theorem runEnd_succ (gt : Bool) (v fuel i : Nat) : runEnd gt v (fuel + 1) i =
    if v.testBit i = gt then runEnd gt v fuel (i + 1) else some i := by
  conv => lhs; unfold runEnd
  cases gt <;> cases v.testBit i <;> simp

theorem runEnd_spec (gt : Bool) (v : Nat) : ∀ (fuel i j : Nat), runEnd gt v fuel i = some j →
    i ≤ j ∧ j < i + fuel ∧ v.testBit j = !gt ∧ ∀ k, i ≤ k → k < j → v.testBit k = gt
  | 0, i, j, h => by simp [runEnd] at h
  | fuel + 1, i, j, h => by
    rw [runEnd_succ] at h
    split at h
    · rename_i hc
      have ih := runEnd_spec gt v fuel (i + 1) j h
      refine ⟨by omega, by omega, ih.2.2.1, ?_⟩
      intro k hk hkj
      by_cases he : k = i
      · subst he; exact hc
      · exact ih.2.2.2 k (by omega) hkj
    · rename_i hc
      cases h
      refine ⟨Nat.le_refl _, by omega, ?_, fun k h1 h2 => absurd h2 (by omega)⟩
      cases gt <;> simpa using hc

theorem runEnd_none (gt : Bool) (v : Nat) : ∀ (fuel i : Nat), runEnd gt v fuel i = none →
    ∀ k, i ≤ k → k < i + fuel → v.testBit k = gt
  | 0, i, _, k, h1, h2 => absurd h2 (by omega)
  | fuel + 1, i, h, k, h1, h2 => by
    rw [runEnd_succ] at h
    split at h
    · rename_i hc
      by_cases he : k = i
      · subst he; exact hc
      · exact runEnd_none gt v fuel (i + 1) h k (by omega) (by omega)
    · cases h

theorem mod_two_pow_succ' (x i : Nat) : x % 2 ^ (i + 1) = x % 2 ^ i + 2 ^ i * (x.testBit i).toNat := by
  rw [Nat.mod_pow_succ, Nat.toNat_testBit]

theorem mod_of_low_false {v : Nat} : ∀ {j : Nat}, (∀ k, k < j → v.testBit k = false) → v % 2 ^ j = 0
  | 0, _ => by simp [Nat.mod_one]
  | j + 1, h => by
    rw [mod_two_pow_succ', h j (Nat.lt_succ_self j), mod_of_low_false (fun k hk => h k (by omega))]
    simp

theorem mod_of_low_true {v : Nat} : ∀ {j : Nat}, (∀ k, k < j → v.testBit k = true) → v % 2 ^ j = 2 ^ j - 1
  | 0, _ => by simp [Nat.mod_one]
  | j + 1, h => by
    rw [mod_two_pow_succ', h j (Nat.lt_succ_self j), mod_of_low_true (fun k hk => h k (by omega))]
    have := Nat.two_pow_pos j
    rw [Nat.pow_succ]
    simp
    omega

/-- What the tree over the bits below `i` decides. -/
def below (gt : Bool) (v n i : Nat) : Bool :=
  if gt then decide (n % 2 ^ i < v % 2 ^ i) else decide (v % 2 ^ i < n % 2 ^ i)

theorem below_first {gt : Bool} {v n j : Nat} (hj : n.testBit j = !gt)
    (hk : ∀ k, k < j → n.testBit k = gt) : below gt v n (j + 1) = decide (v.testBit j = gt) := by
  have hp := Nat.two_pow_pos j
  have hv := Nat.mod_lt v hp
  cases gt
  · simp only [below, Bool.false_eq_true, if_false]
    rw [mod_two_pow_succ', mod_two_pow_succ', hj, mod_of_low_false hk]
    cases hb : v.testBit j <;> (simp; try omega)
  · simp only [below, if_true]
    rw [mod_two_pow_succ', mod_two_pow_succ', hj, mod_of_low_true hk]
    cases hb : v.testBit j <;> (simp; try omega)

theorem below_succ (gt : Bool) (v n i : Nat) :
    below gt v n (i + 1) =
      if n.testBit i = gt then (decide (v.testBit i = gt) && below gt v n i)
      else (decide (v.testBit i = gt) || below gt v n i) := by
  have hp := Nat.two_pow_pos i
  have hv := Nat.mod_lt v hp
  have hn := Nat.mod_lt n hp
  cases gt <;> simp only [below, Bool.false_eq_true, if_false, if_true] <;>
    rw [mod_two_pow_succ', mod_two_pow_succ'] <;>
    cases hb : v.testBit i <;> cases hc : n.testBit i <;>
    simp <;> omega

/-! ## `bit_marker_list` -/

theorem bitLoop_sat {base : Bytes} {w n : Nat} {gt : Bool} (hb : noDbl true base = true) (hw : Width w) :
    ∀ (m i : Nat) (p : TNode) (d : Drv), i + m ≤ w →
      ∃ t d', bitLoop false gt base w n m i p d = .ok (t, d') ∧
        ∀ A v, HasBits A base w v → sat A p = below gt v n i → sat A t = below gt v n (i + m)
  | 0, i, p, d, _ => ⟨p, d, rfl, fun A v _ h => by simpa using h⟩
  | m + 1, i, p, d, him => by
    have hw32 : w ≤ 32 := by rcases hw with h | h | h | h <;> omega
    have hi : i < 32 := by omega
    obtain ⟨t1, d1, h1, h1s⟩ := marker_leaf (d := d) (b := gt) hb hw hi
    obtain ⟨t, d', h2, h2s⟩ := bitLoop_sat hb hw (n := n) (gt := gt) m (i + 1)
      (kof2 (if gt then (if n.testBit i then 2 else 1) else (if n.testBit i then 1 else 2)) t1 p) d1 (by omega)
    refine ⟨t, d', ?_, ?_⟩
    · simp only [bitLoop, if_neg (show ¬ 32 ≤ i by omega), h1, Res.ok_bind]
      exact h2
    · intro A v hA hp
      rw [show i + (m + 1) = (i + 1) + m by omega]
      apply h2s A v hA
      have hmem : sat A t1 = decide (v.testBit i = gt) := by
        rw [h1s, decide_eq_decide, hA i gt hi]
        have : i < markerCount w := by unfold markerCount; split <;> omega
        simp [this]
      rw [below_succ]
      cases gt <;> cases hbit : n.testBit i <;>
        simp [sat_kof2_one, sat_kof2_two, hmem, hp, hbit]

theorem bitMarkerList_sat {base : Bytes} {w : Nat} {gt : Bool} {n : UInt32} {j : Nat} (d : Drv)
    (hb : noDbl true base = true) (hw : Width w) (hj : runEnd gt n.toNat 32 0 = some j) :
    ∃ t d', bitMarkerList d false gt base w n = .ok (t, d') ∧
      (j < markerCount w → ∀ A v, HasBits A base w v →
        sat A t = below gt v n.toNat (max w (j + 1))) := by
  have hs := runEnd_spec gt n.toNat 32 0 j hj
  have hj32 : j < 32 := by omega
  obtain ⟨t1, d1, h1, h1s⟩ := marker_leaf (d := d) (b := gt) hb hw hj32
  by_cases hjw : j + 1 ≤ w
  · obtain ⟨t, d', h2, h2s⟩ := bitLoop_sat hb hw (n := n.toNat) (gt := gt) (w - (j + 1)) (j + 1) t1 d1 (by omega)
    refine ⟨t, d', ?_, ?_⟩
    · simp only [bitMarkerList, hj, h1, Res.ok_bind]
      exact h2
    · intro hjm A v hA
      rw [show max w (j + 1) = j + 1 + (w - (j + 1)) by omega]
      apply h2s A v hA
      rw [h1s, below_first hs.2.2.1 (fun k hk => hs.2.2.2 k (Nat.zero_le _) hk), decide_eq_decide,
        hA j gt hj32]
      simp [hjm]
  · refine ⟨t1, d1, ?_, ?_⟩
    · simp only [bitMarkerList, hj, h1, Res.ok_bind]
      rw [show w - (j + 1) = 0 by omega]
      rfl
    · intro hjm A v hA
      rw [show max w (j + 1) = j + 1 by omega, h1s,
        below_first hs.2.2.1 (fun k hk => hs.2.2.2 k (Nat.zero_le _) hk), decide_eq_decide, hA j gt hj32]
      simp [hjm]

theorem hasBits_assign {A : List Bytes} {base : Bytes} {w : Nat} {v : UInt32} (hw : Width w)
    (hv : v.toNat < 2 ^ w)
    (hA : ∀ s, base ++ b!"_expint" <+: s → (s ∈ A ↔ s ∈ assignStmt base ⟨v, w⟩)) :
    HasBits A base w v.toNat := by
  intro i b hi
  have hpre : base ++ b!"_expint" <+: base ++ msuf w i b := by
    unfold msuf
    simp only [List.append_assoc]
    exact ⟨_, by simp only [List.append_assoc]; rfl⟩
  rw [hA _ hpre, mem_assignStmt hw hv]
  constructor
  · rintro ⟨k, hk, he⟩
    have he' := List.append_cancel_left he
    have hk32 : k < 32 := by
      unfold markerCount at hk
      rcases hw with h | h | h | h <;> subst h <;> simp at hk <;> omega
    obtain ⟨_, rfl, rfl⟩ := msuf_inj hw hw hi hk32 he'
    exact ⟨hk, rfl⟩
  · rintro ⟨hk, he⟩
    exact ⟨i, hk, by rw [he]⟩

/-- No marker of another width. -/
theorem noBits_assign {A : List Bytes} {base : Bytes} {w w' : Nat} {v : UInt32} (hw : Width w)
    (hw' : Width w') (hne : w' ≠ w) (hv : v.toNat < 2 ^ w)
    (hA : ∀ s, base ++ b!"_expint" <+: s → (s ∈ A ↔ s ∈ assignStmt base ⟨v, w⟩)) :
    ∀ i b, i < 32 → base ++ msuf w' i b ∉ A := by
  intro i b hi
  have hpre : base ++ b!"_expint" <+: base ++ msuf w' i b := by
    unfold msuf
    simp only [List.append_assoc]
    exact ⟨_, by simp only [List.append_assoc]; rfl⟩
  rw [hA _ hpre, mem_assignStmt hw hv]
  rintro ⟨k, hk, he⟩
  have he' := List.append_cancel_left he
  have hk32 : k < 32 := by
    unfold markerCount at hk
    rcases hw with h | h | h | h <;> subst h <;> simp at hk <;> omega
  exact hne (msuf_inj hw' hw hi hk32 he').1

/-! ## Equality -/

theorem eqLoop_sat {base : Bytes} {w n : Nat} (hb : noDbl true base = true) (hw : Width w) :
    ∀ (i : Nat) (p : TNode) (d : Drv), i ≤ w →
      ∃ t d', eqLoop false base w n i p d = .ok (t, d') ∧
        ∀ A v, HasBits A base w v → sat A t = (sat A p && decide (∀ k, k < i → v.testBit k = n.testBit k))
  | 0, p, d, _ => ⟨p, d, rfl, fun A v _ => by simp⟩
  | i + 1, p, d, hi => by
    have hw32 : w ≤ 32 := by rcases hw with h | h | h | h <;> omega
    obtain ⟨t1, d1, h1, h1s⟩ := marker_leaf (d := d) (b := n.testBit i) hb hw (show i < 32 by omega)
    obtain ⟨t, d', h2, h2s⟩ := eqLoop_sat hb hw (n := n) i (kof2 2 p t1) d1 (by omega)
    refine ⟨t, d', ?_, ?_⟩
    · simp only [eqLoop, h1, Res.ok_bind]
      exact h2
    · intro A v hA
      have hmem : sat A t1 = decide (v.testBit i = n.testBit i) := by
        rw [h1s, decide_eq_decide, hA i _ (by omega)]
        have : i < markerCount w := by unfold markerCount; split <;> omega
        simp [this]
      rw [h2s A v hA, sat_kof2_two, hmem, Bool.and_assoc]
      congr 1
      rw [Bool.eq_iff_iff]
      simp only [Bool.and_eq_true, decide_eq_true_eq]
      constructor
      · rintro ⟨ha, hb⟩ k hk
        by_cases he : k = i
        · subst he; exact ha
        · exact hb k (by omega)
      · intro h
        exact ⟨h i (by omega), fun k hk => h k (by omega)⟩

theorem eqPolicy_sat {base : Bytes} {w : Nat} (hb : noDbl true base = true) (hw : Width w) (d : Drv)
    (n : UInt32) :
    ∃ t d', eqPolicy d base ⟨n, w⟩ = .ok (t, d') ∧
      ∀ A v, HasBits A base w v → v < 2 ^ w → n.toNat < 2 ^ w → sat A t = decide (v = n.toNat) := by
  have hw32 : w ≤ 32 := by rcases hw with h | h | h | h <;> omega
  have hw0 : w ≠ 0 := by rcases hw with h | h | h | h <;> omega
  obtain ⟨t1, d1, h1, h1s⟩ := marker_leaf (d := d) (b := n.toNat.testBit (w - 1)) hb hw (show w - 1 < 32 by omega)
  obtain ⟨t, d', h2, h2s⟩ := eqLoop_sat hb hw (n := n.toNat) (w - 1) t1 d1 (by omega)
  refine ⟨t, d', ?_, ?_⟩
  · simp only [eqPolicy, hw0, if_false, ne_eq, not_false_eq_true, if_true, decide_false, h1, Res.ok_bind,
      Bool.false_eq_true]
    exact h2
  · intro A v hA hv hn
    have hmem : sat A t1 = decide (v.testBit (w - 1) = n.toNat.testBit (w - 1)) := by
      rw [h1s, decide_eq_decide, hA (w - 1) _ (by omega)]
      have : w - 1 < markerCount w := by unfold markerCount; split <;> omega
      simp [this]
    rw [h2s A v hA, hmem, Bool.eq_iff_iff]
    simp only [Bool.and_eq_true, decide_eq_true_eq]
    constructor
    · rintro ⟨ha, hb⟩
      apply Nat.eq_of_testBit_eq
      intro k
      by_cases h1 : k < w - 1
      · exact hb k h1
      · by_cases h2 : k = w - 1
        · rw [h2]; exact ha
        · have hle : 2 ^ w ≤ 2 ^ k := Nat.pow_le_pow_right (by decide) (by omega)
          rw [Nat.testBit_lt_two_pow (by omega), Nat.testBit_lt_two_pow (by omega)]
    · intro h; subst h; exact ⟨rfl, fun _ _ => rfl⟩

/-! ## The comparison operators -/

theorem width_le {w : Nat} (h : Width w) : w ≤ 32 := by rcases h with h | h | h | h <;> omega

theorem lt_lowest {n w j : Nat} (hn : n ≤ 2 ^ w) (hj : n.testBit j = true)
    (_hk : ∀ k, k < j → n.testBit k = false) : j ≤ w ∧ (j + 1 ≤ w → n < 2 ^ w) := by
  have h1 : 2 ^ j ≤ n := Nat.ge_two_pow_of_testBit hj
  constructor
  · rcases Nat.lt_or_ge w j with h | h
    · have := Nat.pow_lt_pow_right (show 1 < 2 by decide) h
      omega
    · exact h
  · intro hjw
    rcases Nat.lt_or_ge n (2 ^ w) with h | h
    · exact h
    · have he : n = 2 ^ w := by omega
      rw [he, Nat.testBit_two_pow] at hj
      simp at hj
      omega

theorem ltPolicy_sat {base : Bytes} {w : Nat} (hb : noDbl true base = true) (hw : Width w) (d : Drv)
    (n : UInt32) (h1 : 1 ≤ n.toNat) (hn : n.toNat ≤ 2 ^ w) :
    ∃ t d', ltPolicy d base ⟨n, w⟩ = .ok (t, d') ∧
      ∀ A v, HasBits A base w v → v < 2 ^ w → sat A t = decide (v < n.toNat) := by
  have hw0 : w ≠ 0 := by rcases hw with h | h | h | h <;> omega
  have h32 := n.toNat_lt
  cases hj : runEnd false n.toNat 32 0 with
  | none =>
    have := mod_of_low_false (v := n.toNat) (j := 32) (fun k hk => runEnd_none _ _ _ _ hj k (by omega) (by omega))
    omega
  | some j =>
    have hs := runEnd_spec _ _ _ _ _ hj
    obtain ⟨hjw, hlt⟩ := lt_lowest hn (by simpa using hs.2.2.1) (fun k hk => hs.2.2.2 k (by omega) hk)
    obtain ⟨t, d', h2, h2s⟩ := bitMarkerList_sat d hb hw hj
    refine ⟨t, d', ?_, ?_⟩
    · simp only [ltPolicy, cmpPolicy, hw0, if_false, ne_eq, not_false_eq_true, if_true, decide_false]
      exact h2
    · intro A v hA hv
      have hjm : j < markerCount w := by unfold markerCount; split <;> omega
      rw [h2s hjm A v hA]
      simp only [below, Bool.false_eq_true, if_false]
      have hle : 2 ^ w ≤ 2 ^ max w (j + 1) := Nat.pow_le_pow_right (by decide) (by omega)
      rw [Nat.mod_eq_of_lt (show v < _ by omega)]
      have hn' : n.toNat < 2 ^ max w (j + 1) := by
        by_cases hc : j + 1 ≤ w
        · have := hlt hc; omega
        · have := Nat.pow_lt_pow_right (show 1 < 2 by decide) (show w < max w (j + 1) by omega)
          omega
      rw [Nat.mod_eq_of_lt hn']

theorem gt_lowest {n w j : Nat} (hn : n < 2 ^ w) (hk : ∀ k, k < j → n.testBit k = true) : j ≤ w := by
  rcases Nat.lt_or_ge w j with h | h
  · have := hk w h
    rw [Nat.testBit_lt_two_pow hn] at this
    cases this
  · exact h

theorem gtPolicy_sat {base : Bytes} {w : Nat} (hb : noDbl true base = true) (hw : Width w) (d : Drv)
    (n : UInt32) (hn : n.toNat < 2 ^ w) (hmax : n.toNat < 2 ^ 32 - 1) :
    ∃ t d', gtPolicy d base ⟨n, w⟩ = .ok (t, d') ∧
      ∀ A v, HasBits A base w v → v < 2 ^ w → sat A t = decide (n.toNat < v) := by
  have hw0 : w ≠ 0 := by rcases hw with h | h | h | h <;> omega
  cases hj : runEnd true n.toNat 32 0 with
  | none =>
    have := mod_of_low_true (v := n.toNat) (j := 32) (fun k hk => runEnd_none _ _ _ _ hj k (by omega) (by omega))
    omega
  | some j =>
    have hs := runEnd_spec _ _ _ _ _ hj
    have hjw := gt_lowest hn (fun k hk => hs.2.2.2 k (by omega) hk)
    obtain ⟨t, d', h2, h2s⟩ := bitMarkerList_sat d hb hw hj
    refine ⟨t, d', ?_, ?_⟩
    · simp only [gtPolicy, cmpPolicy, hw0, if_false, ne_eq, not_false_eq_true, if_true, decide_false]
      exact h2
    · intro A v hA hv
      have hjm : j < markerCount w := by unfold markerCount; split <;> omega
      rw [h2s hjm A v hA]
      simp only [below, if_true]
      have hle : 2 ^ w ≤ 2 ^ max w (j + 1) := Nat.pow_le_pow_right (by decide) (by omega)
      rw [Nat.mod_eq_of_lt (show v < _ by omega), Nat.mod_eq_of_lt (show n.toNat < _ by omega)]

theorem add1_toNat {n : UInt32} (h : n.toNat < 2 ^ 32 - 1) : (n + 1).toNat = n.toNat + 1 := by
  rw [UInt32.toNat_add]
  simp
  omega

theorem sub1_toNat {n : UInt32} (h : 1 ≤ n.toNat) : (n - 1).toNat = n.toNat - 1 := by
  rw [UInt32.toNat_sub_of_le]
  · simp
  · exact UInt32.le_iff_toNat_le.mpr (by simpa using h)

theorem lePolicy_sat {base : Bytes} {w : Nat} (hb : noDbl true base = true) (hw : Width w) (d : Drv)
    (n : UInt32) (hn : n.toNat < 2 ^ w) (hmax : n.toNat < 2 ^ 32 - 1) :
    ∃ t d', lePolicy d base ⟨n, w⟩ = .ok (t, d') ∧
      ∀ A v, HasBits A base w v → v < 2 ^ w → sat A t = decide (v ≤ n.toNat) := by
  have ha := add1_toNat hmax
  obtain ⟨t, d', h, hs⟩ := ltPolicy_sat hb hw d (n + 1) (by omega) (by omega)
  refine ⟨t, d', h, fun A v hA hv => ?_⟩
  rw [hs A v hA hv, ha, decide_eq_decide]
  omega

theorem gePolicy_sat {base : Bytes} {w : Nat} (hb : noDbl true base = true) (hw : Width w) (d : Drv)
    (n : UInt32) (hn : n.toNat < 2 ^ w) (h1 : 1 ≤ n.toNat) :
    ∃ t d', gePolicy d base ⟨n, w⟩ = .ok (t, d') ∧
      ∀ A v, HasBits A base w v → v < 2 ^ w → sat A t = decide (n.toNat ≤ v) := by
  have ha := sub1_toNat h1
  have h32 := n.toNat_lt
  obtain ⟨t, d', h, hs⟩ := gtPolicy_sat hb hw d (n - 1) (by omega) (by omega)
  refine ⟨t, d', h, fun A v hA hv => ?_⟩
  rw [hs A v hA hv, ha, decide_eq_decide]
  omega

/-! ## Which leaves a comparison uses -/

/-- All texts are markers of `base` with width `w`. -/
def Markers (base : Bytes) (w : Nat) (cs : List Bytes) : Prop :=
  ∀ c ∈ cs, ∃ i b, i < 32 ∧ c = base ++ msuf w i b

theorem Markers.append {base w cs1 cs2} (h1 : Markers base w cs1) (h2 : Markers base w cs2) :
    Markers base w (cs1 ++ cs2) := by
  intro c hc
  rcases List.mem_append.mp hc with h | h
  · exact h1 c h
  · exact h2 c h

theorem Markers.one {base w i b} (h : i < 32) : Markers base w [base ++ msuf w i b] := by
  intro c hc
  exact ⟨i, b, h, by simpa using hc⟩

theorem bitLoop_built {base : Bytes} {w n : Nat} {gt : Bool} {d0 : Drv} :
    ∀ (m i : Nat) (p : TNode) (d : Drv) (cs : List Bytes) (t : TNode) (d' : Drv),
      Built d0 p d cs → Markers base w cs → bitLoop false gt base w n m i p d = .ok (t, d') →
      ∃ cs', Built d0 t d' cs' ∧ Markers base w cs'
  | 0, i, p, d, cs, t, d', hp, hm, h => by
    simp only [bitLoop] at h; cases h; exact ⟨cs, hp, hm⟩
  | m + 1, i, p, d, cs, t, d', hp, hm, h => by
    simp only [bitLoop] at h
    split at h
    · cases h
    · rename_i hi
      obtain ⟨r, hr, h⟩ := (Res.bind_eq_ok _ _ _).mp h
      refine bitLoop_built m (i + 1) _ r.2 (cs ++ [bitMarker false base i gt w]) t d' ?_ ?_ h
      · refine Built.gateR hp (Built.leaf hr) ?_
        cases gt <;> cases n.testBit i <;> simp
      · apply hm.append
        rw [bitMarker_eq]
        exact Markers.one (by omega)

theorem cmpPolicy_built {base : Bytes} {w : Nat} {n : UInt32} {gt : Bool} {d d' : Drv} {t : TNode}
    (hw : w ≠ 0) (h : cmpPolicy d ⟨n, w⟩ gt base = .ok (t, d')) :
    ∃ cs, Built d t d' cs ∧ Markers base w cs := by
  simp only [cmpPolicy, hw, if_false, ne_eq, not_false_eq_true, if_true, decide_false, bitMarkerList] at h
  cases hj : runEnd gt n.toNat 32 0 with
  | none => rw [hj] at h; cases h
  | some j =>
    rw [hj] at h
    have hs := runEnd_spec _ _ _ _ _ hj
    obtain ⟨r, hr, h⟩ := (Res.bind_eq_ok _ _ _).mp h
    refine bitLoop_built _ _ _ _ _ _ _ (Built.leaf hr) ?_ h
    rw [bitMarker_eq]
    exact Markers.one (by omega)

theorem eqLoop_built {base : Bytes} {w n : Nat} {d0 : Drv} :
    ∀ (i : Nat) (p : TNode) (d : Drv) (cs : List Bytes) (t : TNode) (d' : Drv), i ≤ 32 →
      Built d0 p d cs → Markers base w cs → eqLoop false base w n i p d = .ok (t, d') →
      ∃ cs', Built d0 t d' cs' ∧ Markers base w cs'
  | 0, p, d, cs, t, d', _, hp, hm, h => by
    simp only [eqLoop] at h; cases h; exact ⟨cs, hp, hm⟩
  | i + 1, p, d, cs, t, d', hi, hp, hm, h => by
    simp only [eqLoop] at h
    obtain ⟨r, hr, h⟩ := (Res.bind_eq_ok _ _ _).mp h
    refine eqLoop_built i _ r.2 (cs ++ [bitMarker false base i (n.testBit i) w]) t d' (by omega) ?_ ?_ h
    · exact Built.gate hp (Built.leaf hr) (Or.inr rfl)
    · apply hm.append
      rw [bitMarker_eq]
      exact Markers.one (by omega)

theorem eqPolicy_built {base : Bytes} {w : Nat} {n : UInt32} {d d' : Drv} {t : TNode}
    (hw : Width w) (h : eqPolicy d base ⟨n, w⟩ = .ok (t, d')) :
    ∃ cs, Built d t d' cs ∧ Markers base w cs := by
  have hw32 := width_le hw
  have hw0 : w ≠ 0 := by rcases hw with h | h | h | h <;> omega
  simp only [eqPolicy, hw0, if_false, ne_eq, not_false_eq_true, if_true, decide_false, Bool.false_eq_true] at h
  obtain ⟨r, hr, h⟩ := (Res.bind_eq_ok _ _ _).mp h
  refine eqLoop_built _ _ _ _ _ _ (by omega) (Built.leaf hr) ?_ h
  rw [bitMarker_eq]
  exact Markers.one (by omega)

theorem range_built {base : Bytes} {w : Nat} {d d1 d2 : Drv} {l r : TNode}
    (hl : ∃ cs, Built d l d1 cs ∧ Markers base w cs) (hr : ∃ cs, Built d1 r d2 cs ∧ Markers base w cs) :
    ∃ cs, Built d (.gate {} .and 2 [l, r]) d2 cs ∧ Markers base w cs := by
  obtain ⟨c1, h1, m1⟩ := hl
  obtain ⟨c2, h2, m2⟩ := hr
  exact ⟨c1 ++ c2, Built.gate h1 h2 (Or.inr rfl), m1.append m2⟩

theorem leafNode_inv {d d' : Drv} {c : Bytes} {t : TNode} (h : leafNode d c = .ok (t, d')) :
    ∃ p a i, checkAttribute c = .ok (p, a) ∧ t = .leaf {} p a (some i) := by
  unfold leafNode at h
  obtain ⟨pa, hpa, h⟩ := (Res.bind_eq_ok _ _ _).mp h
  cases h
  exact ⟨pa.1, pa.2, _, hpa, rfl⟩

theorem leafNode_canon_sat {d d' : Drv} {c : Bytes} {t : TNode} (hc : canonAux true c = true)
    (h : leafNode d c = .ok (t, d')) (A : List Bytes) : sat A t = decide (c ∈ A) := by
  obtain ⟨t', d'', h', hs⟩ := leafNode_canon (d := d) hc
  rw [h] at h'
  cases h'
  exact hs A

/-- A tree none of whose leaves is held is not satisfied. -/
theorem built_unsat {d d' : Drv} {t : TNode} {cs : List Bytes} (h : Built d t d' cs) (A : List Bytes)
    (hc : ∀ c ∈ cs, canonAux true c = true ∧ c ∉ A) : sat A t = false := by
  induction h with
  | leaf h =>
    rename_i c _ _
    have := hc c (by simp)
    rw [leafNode_canon_sat this.1 h]
    simp [this.2]
  | gate _ _ hk ih1 ih2 =>
    have a := ih1 (fun c h => hc c (List.mem_append_left _ h))
    have b := ih2 (fun c h => hc c (List.mem_append_right _ h))
    rcases hk with rfl | rfl
    · rw [sat_kof2_one, a, b]; rfl
    · rw [sat_kof2_two, a, b]; rfl
  | gateR _ _ hk ih1 ih2 =>
    have a := ih1 (fun c h => hc c (List.mem_append_left _ h))
    have b := ih2 (fun c h => hc c (List.mem_append_right _ h))
    rcases hk with rfl | rfl
    · rw [sat_kof2_one, a, b]; rfl
    · rw [sat_kof2_two, a, b]; rfl

theorem markers_canon {base : Bytes} {w : Nat} {cs : List Bytes} (hb : noDbl true base = true) (hw : Width w)
    (h : Markers base w cs) : ∀ c ∈ cs, canonAux true c = true := by
  intro c hc
  obtain ⟨i, b, hi, rfl⟩ := h c hc
  have := msuf_facts w hw.mem i hi b
  exact canonAux_append this.1 this.2 base true hb

end Abe
