import Verif.Proof.Compare
import Verif.Spec.Numeric
/-!
# Numeric comparisons (C19-C25, C71)

The theorems hold for every driver state `d`, so for a comparison at any place of a policy. The tree is
judged by the Boolean meaning `sat`, which C03 relates to `checkIfSatisfied`.
-/
set_option linter.unusedSimpArgs false
set_option linter.unusedSectionVars false
set_option autoImplicit false
namespace Abe

theorem noDbl_of_nameOk : ∀ (s : Bytes) (p : Bool), (p = true → s.head? ≠ some 58) → ¬ [58, 58] <:+: s →
    noDbl p s = true
  | [], _, _, _ => rfl
  | c :: cs, p, h1, h2 => by
    have h3 : ¬ [58, 58] <:+: cs := fun h => h2 (h.trans (List.infix_cons (List.infix_refl _)))
    by_cases hc : c = 58
    · subst hc
      simp only [noDbl, if_true, Bool.and_eq_true]
      refine ⟨?_, noDbl_of_nameOk cs true ?_ h3⟩
      · cases p with
        | false => rfl
        | true => exact absurd rfl (h1 rfl)
      · intro _ h
        cases cs with
        | nil => cases h
        | cons x xs =>
          have : x = 58 := by simpa using h
          subst this
          exact h2 ⟨[], xs, rfl⟩
    · simp only [noDbl, if_neg hc]
      exact noDbl_of_nameOk cs false (by simp) h3

theorem NameOk.noDbl {s : Bytes} (h : NameOk s) : noDbl true s = true :=
  noDbl_of_nameOk s true (fun _ => h.1) h.2

theorem NumOk.width {n : UInteger} (h : NumOk n) : Width n.bits := h.1

/-- A concrete list: `a = 5#8` beside an unrelated attribute. -/
def exList (v : UInt32) (w : Nat) : List Bytes := b!"x" :: assignStmt b!"a" ⟨v, w⟩

theorem exList_gives : Gives (exList 5 8) b!"a" 5 8 := by
  intro s hs
  simp only [exList, List.mem_cons, or_iff_right_iff_imp]
  rintro rfl
  obtain ⟨t, ht⟩ := hs
  simp at ht

theorem exName : NameOk b!"a" := by
  constructor
  · decide
  · intro h
    have := h.length_le
    simp at this

theorem exNum : NumOk ⟨7, 8⟩ := by unfold NumOk; decide

/-- C19: `base < n` is satisfied by `base = v` (same width) exactly when `v < n`. -/
theorem C19_less_than (d : Drv) (base : Bytes) (hb : NameOk base) (n : UInteger) (hn : NumOk n)
    (A : List Bytes) (v : UInt32) (hv : v.toNat < 2 ^ n.bits) (hA : Gives A base v n.bits) :
    ∃ t d', ltPolicy d base n = .ok (t, d') ∧ (sat A t = true ↔ v.toNat < n.val.toNat) := by
  obtain ⟨t, d', h, hs⟩ := ltPolicy_sat hb.noDbl hn.width d n.val hn.2.2.1 (by have := hn.2.1; omega)
  refine ⟨t, d', h, ?_⟩
  rw [hs A v.toNat (hasBits_assign hn.width hv hA) hv]
  simp

example : NameOk b!"a" ∧ NumOk ⟨7, 8⟩ ∧ (5 : UInt32).toNat < 2 ^ 8 ∧ Gives (exList 5 8) b!"a" 5 8 :=
  ⟨exName, exNum, by decide, exList_gives⟩

/-- C20: `base > n` is satisfied by `base = v` (same width) exactly when `v > n`. -/
theorem C20_greater_than (d : Drv) (base : Bytes) (hb : NameOk base) (n : UInteger) (hn : NumOk n)
    (A : List Bytes) (v : UInt32) (hv : v.toNat < 2 ^ n.bits) (hA : Gives A base v n.bits) :
    ∃ t d', gtPolicy d base n = .ok (t, d') ∧ (sat A t = true ↔ v.toNat > n.val.toNat) := by
  obtain ⟨t, d', h, hs⟩ := gtPolicy_sat hb.noDbl hn.width d n.val hn.2.1 hn.2.2.2
  refine ⟨t, d', h, ?_⟩
  rw [hs A v.toNat (hasBits_assign hn.width hv hA) hv]
  simp

example : NameOk b!"a" ∧ NumOk ⟨7, 8⟩ ∧ (5 : UInt32).toNat < 2 ^ 8 ∧ Gives (exList 5 8) b!"a" 5 8 :=
  ⟨exName, exNum, by decide, exList_gives⟩

/-- C21, first half: `base <= n`. -/
theorem C21_at_most (d : Drv) (base : Bytes) (hb : NameOk base) (n : UInteger) (hn : NumOk n)
    (A : List Bytes) (v : UInt32) (hv : v.toNat < 2 ^ n.bits) (hA : Gives A base v n.bits) :
    ∃ t d', lePolicy d base n = .ok (t, d') ∧ (sat A t = true ↔ v.toNat ≤ n.val.toNat) := by
  obtain ⟨t, d', h, hs⟩ := lePolicy_sat hb.noDbl hn.width d n.val hn.2.1 hn.2.2.2
  refine ⟨t, d', h, ?_⟩
  rw [hs A v.toNat (hasBits_assign hn.width hv hA) hv]
  simp

/-- C21, second half: `base >= n`. -/
theorem C21_at_least (d : Drv) (base : Bytes) (hb : NameOk base) (n : UInteger) (hn : NumOk n)
    (A : List Bytes) (v : UInt32) (hv : v.toNat < 2 ^ n.bits) (hA : Gives A base v n.bits) :
    ∃ t d', gePolicy d base n = .ok (t, d') ∧ (sat A t = true ↔ v.toNat ≥ n.val.toNat) := by
  obtain ⟨t, d', h, hs⟩ := gePolicy_sat hb.noDbl hn.width d n.val hn.2.1 hn.2.2.1
  refine ⟨t, d', h, ?_⟩
  rw [hs A v.toNat (hasBits_assign hn.width hv hA) hv]
  simp

example : NameOk b!"a" ∧ NumOk ⟨255, 8⟩ ∧ (5 : UInt32).toNat < 2 ^ 8 ∧ Gives (exList 5 8) b!"a" 5 8 :=
  ⟨exName, by unfold NumOk; decide, by decide, exList_gives⟩

/-- C22: `base == n` is satisfied by `base = v` (same width) exactly when `v = n`. -/
theorem C22_equal (d : Drv) (base : Bytes) (hb : NameOk base) (n : UInteger) (hn : NumOk n)
    (A : List Bytes) (v : UInt32) (hv : v.toNat < 2 ^ n.bits) (hA : Gives A base v n.bits) :
    ∃ t d', eqPolicy d base n = .ok (t, d') ∧ (sat A t = true ↔ v = n.val) := by
  obtain ⟨t, d', h, hs⟩ := eqPolicy_sat hb.noDbl hn.width d n.val
  refine ⟨t, d', h, ?_⟩
  rw [hs A v.toNat (hasBits_assign hn.width hv hA) hv hn.2.1]
  simp [UInt32.toNat_inj]

example : NameOk b!"a" ∧ NumOk ⟨5, 8⟩ ∧ (5 : UInt32).toNat < 2 ^ 8 ∧ Gives (exList 5 8) b!"a" 5 8 :=
  ⟨exName, by unfold NumOk; decide, by decide, exList_gives⟩

theorem sat_and_pair (A : List Bytes) (l r : TNode) :
    sat A (.gate {} .and 2 [l, r]) = (sat A l && sat A r) := sat_kof2_two A l r

/-- C23, open interval: `base in (lo-hi)`. -/
theorem C23_open_range (d : Drv) (base : Bytes) (hb : NameOk base) (lo hi : UInteger) (hlo : NumOk lo)
    (hhi : NumOk hi) (hbits : hi.bits = lo.bits)
    (A : List Bytes) (v : UInt32) (hv : v.toNat < 2 ^ lo.bits) (hA : Gives A base v lo.bits) :
    ∃ t d', rangePolicy d base lo hi = .ok (t, d') ∧
      (sat A t = true ↔ lo.val.toNat < v.toNat ∧ v.toNat < hi.val.toNat) := by
  obtain ⟨t1, d1, h1, hs1⟩ := C20_greater_than d base hb lo hlo A v hv hA
  obtain ⟨t2, d2, h2, hs2⟩ := C19_less_than d1 base hb hi hhi A v (hbits ▸ hv) (hbits ▸ hA)
  refine ⟨_, d2, by simp only [rangePolicy, h1, h2, Res.ok_bind]; rfl, ?_⟩
  rw [sat_and_pair, Bool.and_eq_true, hs1, hs2]

/-- C23, closed interval: `base in {lo-hi}`. -/
theorem C23_closed_range (d : Drv) (base : Bytes) (hb : NameOk base) (lo hi : UInteger) (hlo : NumOk lo)
    (hhi : NumOk hi) (hbits : hi.bits = lo.bits)
    (A : List Bytes) (v : UInt32) (hv : v.toNat < 2 ^ lo.bits) (hA : Gives A base v lo.bits) :
    ∃ t d', rangeInclPolicy d base lo hi = .ok (t, d') ∧
      (sat A t = true ↔ lo.val.toNat ≤ v.toNat ∧ v.toNat ≤ hi.val.toNat) := by
  obtain ⟨t1, d1, h1, hs1⟩ := C21_at_least d base hb lo hlo A v hv hA
  obtain ⟨t2, d2, h2, hs2⟩ := C21_at_most d1 base hb hi hhi A v (hbits ▸ hv) (hbits ▸ hA)
  refine ⟨_, d2, by simp only [rangeInclPolicy, h1, h2, Res.ok_bind]; rfl, ?_⟩
  rw [sat_and_pair, Bool.and_eq_true, hs1, hs2]

example : NameOk b!"a" ∧ NumOk ⟨3, 8⟩ ∧ NumOk ⟨7, 8⟩ ∧ Gives (exList 5 8) b!"a" 5 8 :=
  ⟨exName, by unfold NumOk; decide, exNum, exList_gives⟩

/-- Every comparison produces a tree built from markers of its own numbers' widths. -/
theorem compile_built {d d' : Drv} {base : Bytes} {c : NumCond} {t : TNode} {w : Nat} (hw : Width w)
    (hn : ∀ n ∈ c.nums, n.bits = w) (h : c.compile d base = .ok (t, d')) :
    ∃ cs, Built d t d' cs ∧ Markers base w cs := by
  have hw0 : w ≠ 0 := by rcases hw with h | h | h | h <;> omega
  cases c with
  | lt n =>
    obtain ⟨v, b⟩ := n
    have : b = w := hn ⟨v, b⟩ (by simp [NumCond.nums]); subst this
    exact cmpPolicy_built hw0 h
  | gt n =>
    obtain ⟨v, b⟩ := n
    have : b = w := hn ⟨v, b⟩ (by simp [NumCond.nums]); subst this
    exact cmpPolicy_built hw0 h
  | le n =>
    obtain ⟨v, b⟩ := n
    have : b = w := hn ⟨v, b⟩ (by simp [NumCond.nums]); subst this
    exact cmpPolicy_built hw0 h
  | ge n =>
    obtain ⟨v, b⟩ := n
    have : b = w := hn ⟨v, b⟩ (by simp [NumCond.nums]); subst this
    exact cmpPolicy_built hw0 h
  | eq n =>
    obtain ⟨v, b⟩ := n
    have : b = w := hn ⟨v, b⟩ (by simp [NumCond.nums]); subst this
    exact eqPolicy_built hw h
  | inOpen lo hi =>
    obtain ⟨v, b⟩ := lo
    obtain ⟨v', b'⟩ := hi
    have : b = w := hn ⟨v, b⟩ (by simp [NumCond.nums]); subst this
    have : b' = b := hn ⟨v', b'⟩ (by simp [NumCond.nums]); subst this
    simp only [NumCond.compile, rangePolicy] at h
    obtain ⟨l, hl, h⟩ := (Res.bind_eq_ok _ _ _).mp h
    obtain ⟨r, hr, h⟩ := (Res.bind_eq_ok _ _ _).mp h
    cases h
    exact range_built (cmpPolicy_built hw0 hl) (cmpPolicy_built hw0 hr)
  | inClosed lo hi =>
    obtain ⟨v, b⟩ := lo
    obtain ⟨v', b'⟩ := hi
    have : b = w := hn ⟨v, b⟩ (by simp [NumCond.nums]); subst this
    have : b' = b := hn ⟨v', b'⟩ (by simp [NumCond.nums]); subst this
    simp only [NumCond.compile, rangeInclPolicy] at h
    obtain ⟨l, hl, h⟩ := (Res.bind_eq_ok _ _ _).mp h
    obtain ⟨r, hr, h⟩ := (Res.bind_eq_ok _ _ _).mp h
    cases h
    exact range_built (cmpPolicy_built hw0 hl) (cmpPolicy_built hw0 hr)

/-- C24: a comparison whose numbers have one width is never satisfied by a value of another width. -/
theorem C24_width_mismatch (d : Drv) (base : Bytes) (hb : NameOk base) (c : NumCond) (w w' : Nat)
    (hw : Width w) (hw' : Width w') (hne : w ≠ w') (hn : ∀ n ∈ c.nums, n.bits = w)
    (A : List Bytes) (v : UInt32) (hv : v.toNat < 2 ^ w') (hA : Gives A base v w')
    (t : TNode) (d' : Drv) (h : c.compile d base = .ok (t, d')) : sat A t = false := by
  obtain ⟨cs, hbt, hm⟩ := compile_built hw hn h
  apply built_unsat hbt
  intro s hs
  refine ⟨markers_canon hb.noDbl hw hm s hs, ?_⟩
  obtain ⟨i, b, hi, rfl⟩ := hm s hs
  exact noBits_assign hw' hw hne hv hA i b hi

/-- C24, ranges whose two ends have different widths: never satisfied either. -/
theorem C24_mixed_range (d : Drv) (base : Bytes) (hb : NameOk base) (lo hi : UInteger) (hlo : Width lo.bits)
    (hhi : Width hi.bits) (hne : lo.bits ≠ hi.bits) (closed : Bool) (w : Nat) (hw : Width w)
    (A : List Bytes) (v : UInt32) (hv : v.toNat < 2 ^ w) (hA : Gives A base v w)
    (t : TNode) (d' : Drv)
    (h : (if closed then rangeInclPolicy d base lo hi else rangePolicy d base lo hi) = .ok (t, d')) :
    sat A t = false := by
  have key : ∀ (d d' : Drv) (t : TNode) (c : NumCond) (n : UInteger), c.nums = [n] → Width n.bits →
      n.bits ≠ w → c.compile d base = .ok (t, d') → sat A t = false := by
    intro d d' t c n hc h1 h2 h3
    exact C24_width_mismatch d base hb c n.bits w h1 hw h2 (by simp [hc]) A v hv hA t d' h3
  cases closed with
  | true =>
    simp only [if_true, rangeInclPolicy] at h
    obtain ⟨l, hl, h⟩ := (Res.bind_eq_ok _ _ _).mp h
    obtain ⟨r, hr, h⟩ := (Res.bind_eq_ok _ _ _).mp h
    cases h
    rw [sat_and_pair]
    by_cases e : lo.bits = w
    · rw [key l.2 r.2 r.1 (.le hi) hi rfl hhi (by omega) hr, Bool.and_false]
    · rw [key d l.2 l.1 (.ge lo) lo rfl hlo e hl, Bool.false_and]
  | false =>
    simp only [Bool.false_eq_true, if_false, rangePolicy] at h
    obtain ⟨l, hl, h⟩ := (Res.bind_eq_ok _ _ _).mp h
    obtain ⟨r, hr, h⟩ := (Res.bind_eq_ok _ _ _).mp h
    cases h
    rw [sat_and_pair]
    by_cases e : lo.bits = w
    · rw [key l.2 r.2 r.1 (.lt hi) hi rfl hhi (by omega) hr, Bool.and_false]
    · rw [key d l.2 l.1 (.gt lo) lo rfl hlo e hl, Bool.false_and]

example : Width 4 ∧ Width 8 ∧ (4 : Nat) ≠ 8 ∧ (∀ n ∈ (NumCond.lt ⟨7, 4⟩).nums, n.bits = 4) ∧
    Gives (exList 5 8) b!"a" 5 8 :=
  ⟨by decide, by decide, by decide, by simp [NumCond.nums], exList_gives⟩

/-- C25 for the numbers of the comparison syntax: compiling any condition on a well-formed name
returns a tree; there is no undefined behaviour. -/
theorem C25_comparisons_defined (d : Drv) (base : Bytes) (hb : NameOk base) (c : NumCond)
    (hn : ∀ n ∈ c.nums, NumOk n) : ∃ t d', c.compile d base = .ok (t, d') := by
  have hlt : ∀ d n, NumOk n → ∃ t d', ltPolicy d base n = .ok (t, d') := fun d n h => by
    obtain ⟨t, d', h1, _⟩ := ltPolicy_sat hb.noDbl h.width d n.val h.2.2.1 (by have := h.2.1; omega)
    exact ⟨t, d', h1⟩
  have hgt : ∀ d n, NumOk n → ∃ t d', gtPolicy d base n = .ok (t, d') := fun d n h => by
    obtain ⟨t, d', h1, _⟩ := gtPolicy_sat hb.noDbl h.width d n.val h.2.1 h.2.2.2
    exact ⟨t, d', h1⟩
  have hle : ∀ d n, NumOk n → ∃ t d', lePolicy d base n = .ok (t, d') := fun d n h => by
    obtain ⟨t, d', h1, _⟩ := lePolicy_sat hb.noDbl h.width d n.val h.2.1 h.2.2.2
    exact ⟨t, d', h1⟩
  have hge : ∀ d n, NumOk n → ∃ t d', gePolicy d base n = .ok (t, d') := fun d n h => by
    obtain ⟨t, d', h1, _⟩ := gePolicy_sat hb.noDbl h.width d n.val h.2.1 h.2.2.1
    exact ⟨t, d', h1⟩
  cases c with
  | lt n => exact hlt d n (hn n (by simp [NumCond.nums]))
  | gt n => exact hgt d n (hn n (by simp [NumCond.nums]))
  | le n => exact hle d n (hn n (by simp [NumCond.nums]))
  | ge n => exact hge d n (hn n (by simp [NumCond.nums]))
  | eq n =>
    obtain ⟨t, d', h1, _⟩ := eqPolicy_sat hb.noDbl (hn n (by simp [NumCond.nums])).width d n.val
    exact ⟨t, d', h1⟩
  | inOpen lo hi =>
    obtain ⟨t1, d1, h1⟩ := hgt d lo (hn lo (by simp [NumCond.nums]))
    obtain ⟨t2, d2, h2⟩ := hlt d1 hi (hn hi (by simp [NumCond.nums]))
    exact ⟨.gate {} .and 2 [t1, t2], d2, by simp only [NumCond.compile, rangePolicy, h1, h2, Res.ok_bind]⟩
  | inClosed lo hi =>
    obtain ⟨t1, d1, h1⟩ := hge d lo (hn lo (by simp [NumCond.nums]))
    obtain ⟨t2, d2, h2⟩ := hle d1 hi (hn hi (by simp [NumCond.nums]))
    exact ⟨.gate {} .and 2 [t1, t2], d2, by simp only [NumCond.compile, rangeInclPolicy, h1, h2, Res.ok_bind]⟩

example : NameOk b!"a" ∧ ∀ n ∈ (NumCond.inOpen ⟨3, 8⟩ ⟨4294967294, 32⟩).nums, NumOk n := by
  refine ⟨exName, ?_⟩
  intro n hn
  simp only [NumCond.nums, List.mem_cons, List.not_mem_nil, or_false] at hn
  rcases hn with rfl | rfl <;> (unfold NumOk; decide)

/-- C25, exactly when the shift goes out of range: `<` (and `<=` before adding one) with 0, `>` with
all ones. Every other 32-bit number is fine. -/
theorem C25_undefined_iff (d : Drv) (base : Bytes) (hb : NameOk base) (w : Nat) (hw : Width w) (v : UInt32)
    (gt : Bool) :
    cmpPolicy d ⟨v, w⟩ gt base = .ub ↔ v = if gt then 0xffffffff else 0 := by
  have hw0 : w ≠ 0 := by rcases hw with h | h | h | h <;> omega
  have h32 := v.toNat_lt
  have hun : cmpPolicy d ⟨v, w⟩ gt base = bitMarkerList d false gt base w v := by
    simp [cmpPolicy, hw0]
  rw [hun]
  cases hj : runEnd gt v.toNat 32 0 with
  | none =>
    have hb := fun k (hk : k < 32) => runEnd_none _ _ _ _ hj k (by omega) (by omega)
    constructor
    · intro _
      cases gt with
      | true =>
        have := mod_of_low_true hb
        simp only [if_true]
        apply UInt32.toNat_inj.mp
        simp
        omega
      | false =>
        have := mod_of_low_false hb
        simp only [Bool.false_eq_true, if_false]
        apply UInt32.toNat_inj.mp
        simp
        omega
    · intro _
      simp [bitMarkerList, hj]
  | some j =>
    obtain ⟨t, d', h, _⟩ := bitMarkerList_sat d hb.noDbl hw hj
    rw [h]
    have hs := runEnd_spec _ _ _ _ _ hj
    constructor
    · intro h; cases h
    · intro he
      exfalso
      subst he
      have h1 := hs.2.2.1
      have hj32 : j < 32 := by omega
      cases gt with
      | true =>
        have : ∀ k, k < 32 → Nat.testBit (0xffffffff : UInt32).toNat k = true := by decide +kernel
        simp only [if_true] at h1
        rw [this j hj32] at h1; cases h1
      | false => simp at h1

example : NameOk b!"a" ∧ Width 32 := ⟨exName, by decide⟩

/-- C25 fails for dates: comparing with a day whose number is 0 (1970-01-01 in UTC) is an out of range
shift, for every prefix, in `<` and in `>=`. -/
theorem C25_date_violated (mk : Mktime) (d : Drv) (pre : Bytes) (hp : NameOk (dateAttr pre))
    (m dd y : UInteger) (h : validateDate mk m dd y = 0) :
    ltDate mk d pre m dd y = .ub ∧ geDate mk d pre m dd y = .ub := by
  constructor
  · simp only [ltDate, h, ltPolicy]
    exact (C25_undefined_iff d _ hp 32 (by decide) 0 false).mpr rfl
  · simp only [geDate, h, gePolicy]
    exact (C25_undefined_iff d _ hp 32 (by decide) (0 - 1) true).mpr (by decide)

example : NameOk (dateAttr b!"p") ∧ validateDate (fun t => (0, t)) ⟨1, 32⟩ ⟨1, 32⟩ ⟨1970, 32⟩ = 0 := by
  refine ⟨⟨by decide, ?_⟩, by decide⟩
  intro h
  obtain ⟨s, t, h⟩ := h
  have : noDbl true (dateAttr b!"p") = true := by decide
  rw [← h] at this
  revert this
  have hf : ∀ (s : Bytes) (p : Bool) (t : Bytes), noDbl p (s ++ [58, 58] ++ t) = false := by
    intro s
    induction s with
    | nil => intro p t; simp [noDbl]
    | cons c cs ih =>
      intro p t
      by_cases hc : c = 58
      · simp only [List.cons_append, noDbl, hc, if_true]; rw [ih]; simp
      · simp only [List.cons_append, noDbl, hc, if_false]; exact ih _ _
  rw [hf]; simp

/-- C71: `value#bits` is accepted exactly for 4, 8, 16 and 32 bits and values that fit. -/
theorem C71_valid_bits (v b : UInt32) :
    checkValidBit v b = true ↔
      (b.toNat = 4 ∨ b.toNat = 8 ∨ b.toNat = 16 ∨ b.toNat = 32) ∧ v.toNat ≤ 2 ^ b.toNat - 1 :=
  checkValidBit_iff v b

example : checkValidBit 15 4 = true ∧ checkValidBit 16 4 = false ∧ checkValidBit 1 12 = false := by decide

end Abe
