import Verif.Props.Numeric
/-!
# Numbers without width (C86)

A number object with zero bits makes the comparisons take their width from its value. The parser makes no such
number (`C86_not_from_texts`); the methods of the driver are public and can be called with one.
-/
set_option linter.unusedSimpArgs false
set_option linter.unusedSectionVars false
set_option autoImplicit false
namespace Abe
namespace Flex

/-- The part of a marker without width after the attribute name. -/
def fsuf (bit : Nat) (v : Bool) : Bytes :=
  b!"_flexint_" ++ (List.replicate (32 - bit - 1) 120 ++ (if v then b!"1" else b!"0") ++ List.replicate bit 120)

theorem marker_eq (base : Bytes) (bit : Nat) (v : Bool) (w : Nat) :
    bitMarker true base bit v w = base ++ fsuf bit v := by
  simp [bitMarker, fsuf]

theorem fsuf_facts : ∀ bit, bit < 32 → ∀ v : Bool,
    canonAux true (fsuf bit v) = true ∧ (fsuf bit v).head? ≠ some 58 := by
  decide +kernel

/-- Reads back the bit number and value from a marker suffix. -/
def fread (s : Bytes) : Nat × Bool :=
  let t := s.drop 9
  (31 - (t.takeWhile (· == 120)).length, (t.dropWhile (· == 120)).head? == some 49)

theorem fread_fsuf : ∀ bit, bit < 32 → ∀ v : Bool, fread (fsuf bit v) = (bit, v) := by
  decide +kernel

theorem fsuf_inj {bit bit' : Nat} {v v' : Bool} (hb : bit < 32) (hb' : bit' < 32) (h : fsuf bit v = fsuf bit' v') :
    bit = bit' ∧ v = v' := by
  have h1 := fread_fsuf bit hb v
  rw [h, fread_fsuf bit' hb' v'] at h1
  cases h1
  exact ⟨rfl, rfl⟩

/-- The attribute list `A` holds, among the strings that begin with `base_flexint_`, exactly those that the
assignment of `v` without width contributes. -/
def Gives (A : List Bytes) (base : Bytes) (v : UInt32) : Prop :=
  ∀ s, base ++ b!"_flexint_" <+: s → (s ∈ A ↔ s ∈ assignStmt base ⟨v, 0⟩)

/-- Exactly the markers of `v`. -/
def HasBits (A : List Bytes) (base : Bytes) (v : Nat) : Prop :=
  ∀ i b, i < 32 → (base ++ fsuf i b ∈ A ↔ v.testBit i = b)

theorem mem_loop {base : Bytes} {w v : Nat} : ∀ {n : Nat} {m : Bytes},
    m ∈ assignLoop true base w v n ↔ ∃ i, i < n ∧ m = base ++ fsuf i (v.testBit i)
  | 0, m => by simp [assignLoop]
  | n + 1, m => by
    simp only [assignLoop, List.mem_cons, mem_loop, marker_eq]
    constructor
    · rintro (h | ⟨i, hi, h⟩)
      · exact ⟨n, Nat.lt_succ_self n, h⟩
      · exact ⟨i, Nat.lt_succ_of_lt hi, h⟩
    · rintro ⟨i, hi, h⟩
      by_cases hn : i = n
      · subst hn; exact Or.inl h
      · exact Or.inr ⟨i, by omega, h⟩

theorem mem_assign {base : Bytes} {v : UInt32} {m : Bytes} :
    m ∈ assignStmt base ⟨v, 0⟩ ↔ ∃ i, i < 32 ∧ m = base ++ fsuf i (v.toNat.testBit i) := by
  unfold assignStmt
  simp only [ne_eq, not_true_eq_false, if_false, if_true, decide_true, false_and]
  rw [if_neg (by decide), mem_loop]

theorem hasBits {A : List Bytes} {base : Bytes} {v : UInt32} (hA : Gives A base v) : HasBits A base v.toNat := by
  intro i b hi
  have hpre : base ++ b!"_flexint_" <+: base ++ fsuf i b := by
    unfold fsuf
    exact ⟨_, by simp only [List.append_assoc]; rfl⟩
  rw [hA _ hpre, mem_assign]
  constructor
  · rintro ⟨k, hk, he⟩
    obtain ⟨rfl, rfl⟩ := fsuf_inj hi hk (List.append_cancel_left he)
    rfl
  · intro he
    exact ⟨i, hi, by rw [he]⟩

theorem leaf_sat {d : Drv} {base : Bytes} {w bit : Nat} {b : Bool} (hb : noDbl true base = true)
    (hbit : bit < 32) :
    ∃ t d', leafNode d (bitMarker true base bit b w) = .ok (t, d') ∧
      ∀ A v, HasBits A base v → sat A t = decide (v.testBit bit = b) := by
  rw [marker_eq]
  have := fsuf_facts bit hbit b
  obtain ⟨t, d', h, hs⟩ := leafNode_canon (d := d) (canonAux_append this.1 this.2 base true hb)
  exact ⟨t, d', h, fun A v hA => by rw [hs, decide_eq_decide, hA bit b hbit]⟩

theorem loop_sat {base : Bytes} {w n : Nat} {gt : Bool} (hb : noDbl true base = true) :
    ∀ (m i : Nat) (p : TNode) (d : Drv), i + m ≤ 32 →
      ∃ t d', bitLoop true gt base w n m i p d = .ok (t, d') ∧
        ∀ A v, HasBits A base v → sat A p = below gt v n i → sat A t = below gt v n (i + m)
  | 0, i, p, d, _ => ⟨p, d, rfl, fun A v _ h => by simpa using h⟩
  | m + 1, i, p, d, him => by
    obtain ⟨t1, d1, h1, h1s⟩ := leaf_sat (d := d) (b := gt) (w := w) hb (show i < 32 by omega)
    obtain ⟨t, d', h2, h2s⟩ := loop_sat (w := w) hb (n := n) (gt := gt) m (i + 1)
      (kof2 (if gt then (if n.testBit i then 2 else 1) else (if n.testBit i then 1 else 2)) t1 p) d1 (by omega)
    refine ⟨t, d', ?_, ?_⟩
    · simp only [bitLoop, if_neg (show ¬ 32 ≤ i by omega), h1, Res.ok_bind]
      exact h2
    · intro A v hA hp
      rw [show i + (m + 1) = (i + 1) + m by omega]
      apply h2s A v hA
      have hmem := h1s A v hA
      rw [below_succ]
      cases gt <;> cases hbit : n.testBit i <;>
        simp [sat_kof2_one, sat_kof2_two, hmem, hp, hbit]

theorem list_sat {base : Bytes} {w : Nat} {gt : Bool} {n : UInt32} {j : Nat} (d : Drv)
    (hb : noDbl true base = true) (hw : w ≤ 32) (hj : runEnd gt n.toNat 32 0 = some j) :
    ∃ t d', bitMarkerList d true gt base w n = .ok (t, d') ∧
      ∀ A v, HasBits A base v → sat A t = below gt v n.toNat (max w (j + 1)) := by
  have hs := runEnd_spec gt n.toNat 32 0 j hj
  obtain ⟨t1, d1, h1, h1s⟩ := leaf_sat (d := d) (b := gt) (w := w) hb (show j < 32 by omega)
  have h0 : ∀ A v, HasBits A base v → sat A t1 = below gt v n.toNat (j + 1) := by
    intro A v hA
    rw [h1s A v hA, below_first hs.2.2.1 (fun k hk => hs.2.2.2 k (Nat.zero_le _) hk)]
  obtain ⟨t, d', h2, h2s⟩ := loop_sat (w := w) hb (n := n.toNat) (gt := gt) (w - (j + 1)) (j + 1) t1 d1
    (by omega)
  refine ⟨t, d', ?_, fun A v hA => ?_⟩
  · simp only [bitMarkerList, hj, h1, Res.ok_bind]
    exact h2
  · rw [show max w (j + 1) = j + 1 + (w - (j + 1)) by omega]
    exact h2s A v hA (h0 A v hA)

/-- The number of bits compared: the smallest of 2, 4, 8, 16 and 32 in which the number of the policy fits. -/
def bitsFor (n : Nat) : Nat :=
  if n < 4 then 2 else if n < 16 then 4 else if n < 256 then 8 else if n < 65536 then 16 else 32

theorem cmp_eq (d : Drv) (n : UInt32) (gt : Bool) (base : Bytes) :
    cmpPolicy d ⟨n, 0⟩ gt base = bitMarkerList d true gt base (bitsFor n.toNat) n := by
  have e : ∀ k : UInt32, (n ≥ k) = (k.toNat ≤ n.toNat) := fun k => by rw [ge_iff_le, UInt32.le_iff_toNat_le]
  simp only [cmpPolicy, ne_eq, not_true_eq_false, if_false, decide_true, e]
  congr 1
  rw [bitsFor]
  simp only [show (65536 : UInt32).toNat = 65536 from rfl, show (256 : UInt32).toNat = 256 from rfl,
    show (16 : UInt32).toNat = 16 from rfl, show (4 : UInt32).toNat = 4 from rfl]
  split
  · rw [if_neg (by omega), if_neg (by omega), if_neg (by omega), if_neg (by omega)]
  · split
    · rw [if_neg (by omega), if_neg (by omega), if_neg (by omega), if_pos (by omega)]
    · split
      · rw [if_neg (by omega), if_neg (by omega), if_pos (by omega)]
      · split
        · rw [if_neg (by omega), if_pos (by omega)]
        · rw [if_pos (by omega)]

theorem bitsFor_spec (n : Nat) (h : n < 2 ^ 32) : n < 2 ^ bitsFor n ∧ bitsFor n ≤ 32 := by
  unfold bitsFor
  split
  · exact ⟨by omega, by omega⟩
  · split
    · exact ⟨by omega, by omega⟩
    · split
      · exact ⟨by omega, by omega⟩
      · split
        · exact ⟨by omega, by omega⟩
        · exact ⟨by omega, by omega⟩

/-- C86, what holds for `<`: only the bits in which the number of the policy fits are compared. Missing: values
that do not fit in them are compared without their upper bits. -/
theorem C86_less_than_partial (d : Drv) (base : Bytes) (hb : NameOk base) (n : UInt32) (hn : 1 ≤ n.toNat)
    (A : List Bytes) (v : UInt32) (hA : Gives A base v) :
    ∃ t d', ltPolicy d base ⟨n, 0⟩ = .ok (t, d') ∧
      (sat A t = true ↔ v.toNat % 2 ^ bitsFor n.toNat < n.toNat) := by
  have h32 := n.toNat_lt
  obtain ⟨hlt, hle⟩ := bitsFor_spec n.toNat h32
  cases hj : runEnd false n.toNat 32 0 with
  | none =>
    have := mod_of_low_false (v := n.toNat) (j := 32) (fun k hk => runEnd_none _ _ _ _ hj k (by omega) (by omega))
    omega
  | some j =>
    have hs := runEnd_spec _ _ _ _ _ hj
    obtain ⟨t, d', h2, h2s⟩ := list_sat d hb.noDbl hle hj
    have hjw : j + 1 ≤ bitsFor n.toNat := by
      rcases Nat.lt_or_ge j (bitsFor n.toNat) with h | h
      · exact h
      · have h1 := hs.2.2.1
        rw [Nat.testBit_lt_two_pow (Nat.lt_of_lt_of_le hlt (Nat.pow_le_pow_right (by decide) h))] at h1
        cases h1
    refine ⟨t, d', by rw [ltPolicy, cmp_eq]; exact h2, ?_⟩
    rw [h2s A _ (hasBits hA), show max (bitsFor n.toNat) (j + 1) = bitsFor n.toNat by omega]
    simp only [below, Bool.false_eq_true, if_false, decide_eq_true_eq]
    rw [Nat.mod_eq_of_lt hlt]

/-- The number of bits compared by `>`: one more if the number has all bits set. -/
def bitsForGt (n : Nat) : Nat := if n + 1 = 2 ^ bitsFor n then bitsFor n + 1 else bitsFor n

theorem gt_first {n W j : Nat} (hn : n < 2 ^ W) (hk : ∀ k, k < j → n.testBit k = true)
    (hj : n.testBit j = false) : max W (j + 1) = if n + 1 = 2 ^ W then W + 1 else W := by
  have hle := gt_lowest hn hk
  by_cases he : j = W
  · subst he
    have := mod_of_low_true hk
    rw [Nat.mod_eq_of_lt hn] at this
    have hp := Nat.two_pow_pos j
    rw [if_pos (by omega)]
    omega
  · rw [if_neg]
    · omega
    · intro h1
      have : n = 2 ^ W - 1 := by omega
      rw [this, Nat.testBit_two_pow_sub_one] at hj
      simp at hj
      omega

/-- C86, what holds for `>`. -/
theorem C86_greater_than_partial (d : Drv) (base : Bytes) (hb : NameOk base) (n : UInt32)
    (hn : n.toNat < 2 ^ 32 - 1) (A : List Bytes) (v : UInt32) (hA : Gives A base v) :
    ∃ t d', gtPolicy d base ⟨n, 0⟩ = .ok (t, d') ∧
      (sat A t = true ↔ n.toNat < v.toNat % 2 ^ bitsForGt n.toNat) := by
  have h32 := n.toNat_lt
  obtain ⟨hlt, hle⟩ := bitsFor_spec n.toNat h32
  cases hj : runEnd true n.toNat 32 0 with
  | none =>
    have := mod_of_low_true (v := n.toNat) (j := 32) (fun k hk => runEnd_none _ _ _ _ hj k (by omega) (by omega))
    omega
  | some j =>
    have hs := runEnd_spec _ _ _ _ _ hj
    obtain ⟨t, d', h2, h2s⟩ := list_sat d hb.noDbl hle hj
    have hm := gt_first hlt (fun k hk => hs.2.2.2 k (Nat.zero_le _) hk) (by simpa using hs.2.2.1)
    refine ⟨t, d', by rw [gtPolicy, cmp_eq]; exact h2, ?_⟩
    rw [h2s A _ (hasBits hA), hm]
    have hlt2 : n.toNat < 2 ^ bitsForGt n.toNat := by
      unfold bitsForGt
      split
      · exact Nat.lt_of_lt_of_le hlt (Nat.pow_le_pow_right (by decide) (by omega))
      · exact hlt
    simp only [below, if_true, decide_eq_true_eq]
    rw [show (if n.toNat + 1 = 2 ^ bitsFor n.toNat then bitsFor n.toNat + 1 else bitsFor n.toNat) =
      bitsForGt n.toNat from rfl, Nat.mod_eq_of_lt hlt2]

def exList : List Bytes := b!"x" :: assignStmt b!"a" ⟨20, 0⟩

theorem exGives : Gives exList b!"a" 20 := by
  intro s hs
  simp only [exList, List.mem_cons, or_iff_right_iff_imp]
  rintro rfl
  obtain ⟨t, ht⟩ := hs
  simp at ht

example : NameOk b!"a" ∧ 1 ≤ (5 : UInt32).toNat ∧ Gives exList b!"a" 20 := ⟨exName, by decide, exGives⟩

/-- C86 is violated: 20 counts as less than 5, and 16 does not count as greater than 7. -/
theorem C86_low_bits_violated (d : Drv) :
    (∃ t d', ltPolicy d b!"a" ⟨5, 0⟩ = .ok (t, d') ∧ ∀ A, Gives A b!"a" 20 → sat A t = true) ∧
    (∃ t d', gtPolicy d b!"a" ⟨7, 0⟩ = .ok (t, d') ∧ ∀ A, Gives A b!"a" 16 → sat A t = false) := by
  constructor
  · obtain ⟨t, d', h, -⟩ := C86_less_than_partial d b!"a" exName 5 (by decide) exList 20 exGives
    refine ⟨t, d', h, fun A hA => ?_⟩
    obtain ⟨t2, d2, h2, hs⟩ := C86_less_than_partial d b!"a" exName 5 (by decide) A 20 hA
    rw [h] at h2
    cases h2
    exact hs.mpr (by decide)
  · obtain ⟨t, d', h, -⟩ := C86_greater_than_partial d b!"a" exName 7 (by decide) exList 20 exGives
    refine ⟨t, d', h, fun A hA => ?_⟩
    obtain ⟨t2, d2, h2, hs⟩ := C86_greater_than_partial d b!"a" exName 7 (by decide) A 16 hA
    rw [h] at h2
    cases h2
    rw [Bool.eq_false_iff, ne_eq, hs]
    decide

/-- C86: values that fit in the bits of the policy's number are compared correctly. -/
theorem C86_fitting_values_partial (d : Drv) (base : Bytes) (hb : NameOk base) (n : UInt32) (hn : 1 ≤ n.toNat)
    (hm : n.toNat < 2 ^ 32 - 1) (A : List Bytes) (v : UInt32) (hv : v.toNat < 2 ^ bitsFor n.toNat)
    (hA : Gives A base v) :
    (∃ t d', ltPolicy d base ⟨n, 0⟩ = .ok (t, d') ∧ (sat A t = true ↔ v.toNat < n.toNat)) ∧
    (∃ t d', gtPolicy d base ⟨n, 0⟩ = .ok (t, d') ∧ (sat A t = true ↔ v.toNat > n.toNat)) := by
  have hv2 : v.toNat < 2 ^ bitsForGt n.toNat := by
    unfold bitsForGt
    split
    · exact Nat.lt_of_lt_of_le hv (Nat.pow_le_pow_right (by decide) (by omega))
    · exact hv
  have h1 := C86_less_than_partial d base hb n hn A v hA
  have h2 := C86_greater_than_partial d base hb n hm A v hA
  rw [Nat.mod_eq_of_lt hv] at h1
  rw [Nat.mod_eq_of_lt hv2] at h2
  exact ⟨h1, h2⟩

example : (6 : UInt32).toNat < 2 ^ bitsFor (5 : UInt32).toNat := by decide

theorem eqLoop_sat {base : Bytes} {w n : Nat} (hb : noDbl true base = true) :
    ∀ (i : Nat) (p : TNode) (d : Drv), i ≤ 32 →
      ∃ t d', eqLoop true base w n i p d = .ok (t, d') ∧
        ∀ A v, HasBits A base v → sat A t = (sat A p && decide (∀ k, k < i → v.testBit k = n.testBit k))
  | 0, p, d, _ => ⟨p, d, rfl, fun A v _ => by simp⟩
  | i + 1, p, d, hi => by
    obtain ⟨t1, d1, h1, h1s⟩ := leaf_sat (d := d) (b := n.testBit i) (w := w) hb (show i < 32 by omega)
    obtain ⟨t, d', h2, h2s⟩ := eqLoop_sat hb (n := n) (w := w) i (kof2 2 p t1) d1 (by omega)
    refine ⟨t, d', ?_, ?_⟩
    · simp only [eqLoop, h1, Res.ok_bind]
      exact h2
    · intro A v hA
      rw [h2s A v hA, sat_kof2_two, h1s A v hA, Bool.and_assoc]
      congr 1
      rw [Bool.eq_iff_iff]
      simp only [Bool.and_eq_true, decide_eq_true_eq]
      constructor
      · rintro ⟨ha, hb⟩ k hk
        by_cases he : k = i
        · subst he; exact ha
        · exact hb k (by omega)
      · intro h
        exact ⟨h i (by omega), fun k hk => h k (by omega)⟩

/-- C86: equality compares all 32 bits. -/
theorem C86_equal (d : Drv) (base : Bytes) (hb : NameOk base) (n : UInt32) (A : List Bytes) (v : UInt32)
    (hA : Gives A base v) :
    ∃ t d', eqPolicy d base ⟨n, 0⟩ = .ok (t, d') ∧ (sat A t = true ↔ v = n) := by
  obtain ⟨m, hm⟩ : ∃ m, m = 31 := ⟨_, rfl⟩
  obtain ⟨t1, d1, h1, h1s⟩ := leaf_sat (d := d) (b := n.toNat.testBit m) (w := 32) hb.noDbl (show m < 32 by omega)
  obtain ⟨t, d', h2, h2s⟩ := eqLoop_sat hb.noDbl (n := n.toNat) (w := 32) m t1 d1 (by omega)
  refine ⟨t, d', ?_, ?_⟩
  · simp only [eqPolicy, ne_eq, not_true_eq_false, if_false, if_true, decide_true]
    rw [show 32 - 1 = m from hm.symm, h1, Res.ok_bind]
    exact h2
  · rw [h2s A _ (hasBits hA), h1s A _ (hasBits hA)]
    simp only [Bool.and_eq_true, decide_eq_true_eq]
    rw [← UInt32.toNat_inj]
    constructor
    · rintro ⟨ha, hb⟩
      apply Nat.eq_of_testBit_eq
      intro k
      by_cases h1 : k < m
      · exact hb k h1
      · by_cases h2 : k = m
        · rw [h2]; exact ha
        · have hle : 2 ^ (m + 1) ≤ 2 ^ k := Nat.pow_le_pow_right (by decide) (by omega)
          have h3 := v.toNat_lt
          have h4 := n.toNat_lt
          rw [show (32 : Nat) = m + 1 by omega] at h3 h4
          rw [Nat.testBit_lt_two_pow (by omega), Nat.testBit_lt_two_pow (by omega)]
    · intro h; rw [h]; exact ⟨rfl, fun _ _ => rfl⟩

/-- C86: no text makes such a number: the parser makes a number either with the checked width behind `#` or with
32 bits (include/lsss/zparser.yy:116-123). -/
theorem C86_not_from_texts (v b : UInt32) (h : checkValidBit v b = true) :
    (createExpint v b).bits ≠ 0 ∧ (createFlexint v).bits ≠ 0 := by
  obtain ⟨hb, -⟩ := (C71_valid_bits v b).mp h
  refine ⟨?_, ?_⟩
  · rw [createExpint]
    dsimp only
    rcases hb with h | h | h | h <;> rw [h] <;> decide
  · simp [createFlexint]

example : checkValidBit 15 4 = true := by decide

end Flex
end Abe
