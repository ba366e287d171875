import Verif.Proof.Mixed
/-!
# Lists that say several things about the same name (C160)
-/
set_option linter.unusedSimpArgs false
set_option linter.unusedSectionVars false
set_option autoImplicit false
namespace Abe
variable {mk : Mktime}
open TextEx LsssEx Mixed

/-- C160. What any list means for any policy, also if the list contradicts itself: the answer is `true` exactly
when the formula is true of the items that stay, where an upper bound is compared with the bits that all values
of the number have in common, a lower bound with the bits that any value has, and the bits of an equation may
come from different values. -/
theorem C160_meaning (S : StdSort) (s l : Bytes) (e : Expr) (a : AExpr) (hs : PolicyText mk s e)
    (h1 : effective (lex l) = a.toks) (h2 : a.canon = true) (h3 : a.valid = true) :
    ∃ (p : Policy) (t : TNode) (al : AttrList) (r : Bool) (n : Int) (t' : TNode),
      createPolicyTree mk s = .ok (some p) ∧ p.root = some t ∧
      createAttributeList mk l = .ok (some al) ∧
      checkIfSatisfied S t al.attrs = .ok ((r, n), t') ∧
      (r = true ↔ mixedFor mk e a) := by
  obtain ⟨p, t, d', g1, g2, g3, g4, _, g6, _, _, _, _, _, g10⟩ := parsed hs
  obtain ⟨al, k1, k2, _, k3⟩ := createAttributeList_ok mk h2 h3 h1
  obtain ⟨n, t', hc, _⟩ := C03_check_decides_formula S t al.attrs g4 g6
  refine ⟨p, t, al, _, n, t', g1, g2, k1, hc, ?_⟩
  rw [k2]
  have hok : ∀ i ∈ remaining [] a.items, i.Ok := fun i h =>
    have hi := remaining_sub _ _ i h
    ⟨a.items_valid h3 i hi, fun t ht => k3 t (a.items_toks i hi t ht)⟩
  refine expr_vals e _ d' t hs.valid g10 hs.dates hs.names ?_ ?_ g3
  · intro x hx
    exact items_plain hok (attrs_remaining _) (name_no_expint (g10 (.leaf x) (e.plain_toks x hx)))
  · intro c hc w hw
    exact items_vals hok (attrs_remaining _) (CondSyn.base_clean (fun t h => g10 t (e.conds_toks c hc t h))) hw

/-- `|a = 5|b`, and the list that gives `a` two values, drops the plain `a` and keeps the plain `b`. -/
example : PolicyText mk b!"a < 7 and (b or dept:x)" e2 ∧
    (∃ a : AExpr, effective (lex b!"a=12|b|a=3|a") = a.toks ∧ a.canon = true ∧ a.valid = true ∧
      remaining [] a.items = [.num b!"a" (.flex 12), .leaf b!"b", .num b!"a" (.flex 3)] ∧
      valuesOf mk (remaining [] a.items) b!"a" 32 = [12, 3] ∧ allBits [12, 3] = 0 ∧ anyBits [12, 3] = 15) := by
  refine ⟨text2, .cat (.item (.num b!"a" (.flex 12))) (.cat (.item (.leaf b!"b"))
    (.cat (.item (.num b!"a" (.flex 3))) (.item (.leaf b!"a")))), by decide +kernel, by decide, by decide,
    by decide, ?_, by decide, by decide⟩
  show valuesOf mk [.num b!"a" (.flex 12), .leaf b!"b", .num b!"a" (.flex 3)] b!"a" 32 = [12, 3]
  simp [valuesOf, Item.value, NumSyn.val, createFlexint]

/-- With one value the conditions mean what they say. -/
theorem C160_one_value (c : NumCond) (vals : Nat → List Nat) (v w : Nat) (h32 : v < 2 ^ 32) (hv : v < 2 ^ w)
    (h1 : vals w = [v]) (hn : ∀ n ∈ c.nums, n.bits = w ∧ n.val.toNat < 2 ^ w) : c.mixed vals ↔ c.holds v := by
  have ea : allBits [v] = v := by
    apply Nat.eq_of_testBit_eq
    intro i
    simp only [allBits, List.foldr_cons, List.foldr_nil, Nat.testBit_and, Nat.testBit_two_pow_sub_one]
    by_cases hi : i < 32
    · simp [hi]
    · have : v < 2 ^ i := Nat.lt_of_lt_of_le h32 (Nat.pow_le_pow_right (by decide) (by omega))
      simp [Nat.testBit_lt_two_pow this]
  have eo : anyBits [v] = v := by simp [anyBits]
  cases c with
  | lt n => simp [NumCond.mixed, NumCond.holds, (hn n (by simp [NumCond.nums])).1, h1, ea]
  | gt n => simp [NumCond.mixed, NumCond.holds, (hn n (by simp [NumCond.nums])).1, h1, eo]
  | le n => simp [NumCond.mixed, NumCond.holds, (hn n (by simp [NumCond.nums])).1, h1, ea]
  | ge n => simp [NumCond.mixed, NumCond.holds, (hn n (by simp [NumCond.nums])).1, h1, eo]
  | eq n =>
    obtain ⟨e, hf⟩ := hn n (by simp [NumCond.nums])
    simp only [NumCond.mixed, NumCond.holds, e, h1, List.mem_singleton, exists_eq_left]
    constructor
    · intro h
      apply Nat.eq_of_testBit_eq
      intro i
      by_cases hi : i < w
      · exact h i hi
      · have hle : 2 ^ w ≤ 2 ^ i := Nat.pow_le_pow_right (by decide) (by omega)
        rw [Nat.testBit_lt_two_pow (by omega), Nat.testBit_lt_two_pow (by omega)]
    · rintro rfl i _; rfl
  | inOpen lo hi =>
    simp [NumCond.mixed, NumCond.holds, (hn lo (by simp [NumCond.nums])).1, (hn hi (by simp [NumCond.nums])).1, h1, ea, eo]
  | inClosed lo hi =>
    simp [NumCond.mixed, NumCond.holds, (hn lo (by simp [NumCond.nums])).1, (hn hi (by simp [NumCond.nums])).1, h1, ea, eo]

example : (NumCond.inOpen ⟨3, 8⟩ ⟨7, 8⟩).mixed (fun w => if w = 8 then [5] else []) ∧ (5 : Nat) < 2 ^ 8 := by
  refine ⟨?_, by decide⟩
  simp [NumCond.mixed, anyBits, allBits]

/-- With no value of its width no condition holds. -/
theorem C160_no_value (c : NumCond) (vals : Nat → List Nat) (hn : ∀ n ∈ c.nums, NumOk n)
    (h0 : ∃ n ∈ c.nums, vals n.bits = []) : ¬ c.mixed vals := by
  have e0 : anyBits [] = 0 := rfl
  have e1 : allBits [] = 4294967295 := rfl
  have hpos : ∀ n ∈ c.nums, 0 < n.bits := fun n h => by rcases (hn n h).1 with e | e | e | e <;> omega
  have hb : ∀ n ∈ c.nums, 1 ≤ n.val.toNat ∧ n.val.toNat < 4294967295 := fun n h => (hn n h).2.2
  obtain ⟨n, hm, h0⟩ := h0
  intro h
  cases c with
  | lt m => have := hb m (by simp [NumCond.nums]); simp [NumCond.nums] at hm; subst hm; simp only [NumCond.mixed, h0, e1] at h; omega
  | gt m => have := hb m (by simp [NumCond.nums]); simp [NumCond.nums] at hm; subst hm; simp only [NumCond.mixed, h0, e0] at h; omega
  | le m => have := hb m (by simp [NumCond.nums]); simp [NumCond.nums] at hm; subst hm; simp only [NumCond.mixed, h0, e1] at h; omega
  | ge m => have := hb m (by simp [NumCond.nums]); simp [NumCond.nums] at hm; subst hm; simp only [NumCond.mixed, h0, e0] at h; omega
  | eq m =>
    have := hpos m (by simp [NumCond.nums])
    simp [NumCond.nums] at hm; subst hm
    simp only [NumCond.mixed, h0] at h
    obtain ⟨v, hv, _⟩ := h 0 this
    cases hv
  | inOpen lo hi =>
    have := hb lo (by simp [NumCond.nums]); have := hb hi (by simp [NumCond.nums])
    simp [NumCond.nums] at hm
    rcases hm with rfl | rfl <;> simp only [NumCond.mixed, h0, e0, e1] at h <;> omega
  | inClosed lo hi =>
    have := hb lo (by simp [NumCond.nums]); have := hb hi (by simp [NumCond.nums])
    simp [NumCond.nums] at hm
    rcases hm with rfl | rfl <;> simp only [NumCond.mixed, h0, e0, e1] at h <;> omega

example : NumOk ⟨3, 8⟩ ∧ NumOk ⟨7, 4⟩ := by
  refine ⟨⟨by decide, by decide, by decide, by decide⟩, ⟨by decide, by decide, by decide, by decide⟩⟩

/-- Whatever holds for some values holds for more values: a longer list of values is never worse. -/
theorem C160_more_values (c : NumCond) (vals vals' : Nat → List Nat) (h : ∀ w, ∀ v ∈ vals w, v ∈ vals' w)
    (hc : c.mixed vals) : c.mixed vals' := by
  have hall : ∀ {V V' : List Nat}, (∀ v ∈ V, v ∈ V') → allBits V' ≤ allBits V := by
    intro V V' hs
    induction V with
    | nil =>
      clear hs
      show V'.foldr (· &&& ·) (2 ^ 32 - 1) ≤ 2 ^ 32 - 1
      induction V' with
      | nil => exact Nat.le_refl _
      | cons v V' ih => exact Nat.le_trans Nat.and_le_right ih
    | cons v V ih =>
      have i1 := ih (fun u hu => hs u (by simp [hu]))
      refine Nat.le_of_testBit ?_
      intro i hi
      show (v &&& allBits V).testBit i = true
      by_cases h32 : i < 32
      · by_contra hx
        have hx' : (allBits (v :: V)).testBit i = false := by
          cases hb : (allBits (v :: V)).testBit i with
          | false => rfl
          | true => exact absurd hb hx
        obtain ⟨u, hu, hb⟩ := (allBits_bit _ h32).mp hx'
        have := (allBits_bit V' h32).mpr ⟨u, hs u hu, hb⟩
        rw [this] at hi; cases hi
      · exfalso
        have hle : ∀ W : List Nat, allBits W < 2 ^ 32 := by
          intro W
          induction W with
          | nil => decide
          | cons u W ih => exact Nat.lt_of_le_of_lt Nat.and_le_right ih
        have : allBits V' < 2 ^ i := Nat.lt_of_lt_of_le (hle V') (Nat.pow_le_pow_right (by decide) (by omega))
        rw [Nat.testBit_lt_two_pow this] at hi
        cases hi
  have hany : ∀ {V V' : List Nat}, (∀ v ∈ V, v ∈ V') → anyBits V ≤ anyBits V' := by
    intro V V' hs
    refine Nat.le_of_testBit ?_
    intro i hi
    obtain ⟨u, hu, hb⟩ := (anyBits_bit V i).mp hi
    exact (anyBits_bit V' i).mpr ⟨u, hs u hu, hb⟩
  cases c with
  | lt n => exact Nat.lt_of_le_of_lt (hall (h _)) hc
  | gt n => exact Nat.lt_of_lt_of_le hc (hany (h _))
  | le n => exact Nat.le_trans (hall (h _)) hc
  | ge n => exact Nat.le_trans hc (hany (h _))
  | eq n =>
    intro i hi
    obtain ⟨v, hv, hb⟩ := hc i hi
    exact ⟨v, h _ v hv, hb⟩
  | inOpen lo hi => exact ⟨Nat.lt_of_lt_of_le hc.1 (hany (h _)), Nat.lt_of_le_of_lt (hall (h _)) hc.2⟩
  | inClosed lo hi => exact ⟨Nat.le_trans hc.1 (hany (h _)), Nat.le_trans (hall (h _)) hc.2⟩

example : (NumCond.lt ⟨6, 4⟩).mixed (fun _ => [5]) ∧ ∀ v ∈ [5], v ∈ [5, 6] := by
  refine ⟨?_, by simp⟩
  simp [NumCond.mixed, allBits]

/-- Two values are enough for every condition: a list that gives a number a value and its complement satisfies
every equation, every upper bound, and every lower bound that some number of that width satisfies. -/
theorem C160_two_values (c : NumCond) (vals : Nat → List Nat) (v w : Nat) (hw : w ≤ 32) (hv : v < 2 ^ w)
    (h1 : v ∈ vals w) (h2 : 2 ^ w - 1 - v ∈ vals w) (hn : ∀ n ∈ c.nums, NumOk n ∧ n.bits = w)
    (hg : ∀ n ∈ c.nums, n.val.toNat < 2 ^ w - 1) : c.mixed vals := by
  have hcomp : ∀ i, i < w → (2 ^ w - 1 - v).testBit i = !v.testBit i := by
    intro i hi
    have e : 2 ^ w - 1 - v = 2 ^ w - (v + 1) := by omega
    rw [e, Nat.testBit_two_pow_sub_succ hv]
    simp [hi]
  have hbit : ∀ i b, i < w → ∃ u ∈ vals w, u.testBit i = b := by
    intro i b hi
    by_cases hb : v.testBit i = b
    · exact ⟨v, h1, hb⟩
    · refine ⟨_, h2, ?_⟩
      rw [hcomp i hi]
      cases b <;> simpa using hb
  have hlow : allBits (vals w) = 0 := by
    apply Nat.eq_of_testBit_eq
    intro i
    rw [Nat.zero_testBit]
    by_cases hi : i < w
    · exact (allBits_bit _ (by omega)).mpr (hbit i false hi)
    · have hle : 2 ^ w ≤ 2 ^ i := Nat.pow_le_pow_right (by decide) (by omega)
      exact Nat.testBit_lt_two_pow (Nat.lt_of_lt_of_le (Nat.lt_of_le_of_lt (allBits_le h1) hv) hle)
  have hhigh : 2 ^ w - 1 ≤ anyBits (vals w) := by
    refine Nat.le_of_testBit ?_
    intro i hi
    rw [Nat.testBit_two_pow_sub_one, decide_eq_true_eq] at hi
    exact (anyBits_bit _ i).mpr (hbit i true hi)
  have P : ∀ n ∈ c.nums, 0 < n.val.toNat ∧ n.val.toNat < 2 ^ w - 1 ∧ n.bits = w :=
    fun n h => ⟨(hn n h).1.2.2.1, hg n h, (hn n h).2⟩
  cases c with
  | lt n => obtain ⟨a, b, e⟩ := P n (by simp [NumCond.nums]); simp only [NumCond.mixed, e]; omega
  | gt n => obtain ⟨a, b, e⟩ := P n (by simp [NumCond.nums]); simp only [NumCond.mixed, e]; omega
  | le n => obtain ⟨a, b, e⟩ := P n (by simp [NumCond.nums]); simp only [NumCond.mixed, e]; omega
  | ge n => obtain ⟨a, b, e⟩ := P n (by simp [NumCond.nums]); simp only [NumCond.mixed, e]; omega
  | eq n =>
    obtain ⟨a, b, e⟩ := P n (by simp [NumCond.nums])
    simp only [NumCond.mixed, e]
    exact fun i hi => hbit i _ hi
  | inOpen lo hi =>
    obtain ⟨a, b, e⟩ := P lo (by simp [NumCond.nums]); obtain ⟨a', b', e'⟩ := P hi (by simp [NumCond.nums])
    simp only [NumCond.mixed, e, e']; omega
  | inClosed lo hi =>
    obtain ⟨a, b, e⟩ := P lo (by simp [NumCond.nums]); obtain ⟨a', b', e'⟩ := P hi (by simp [NumCond.nums])
    simp only [NumCond.mixed, e, e']; omega

example : (5 : Nat) < 2 ^ 4 ∧ 2 ^ 4 - 1 - 5 ∈ [5, 10] ∧ NumOk ⟨9, 4⟩ := by
  refine ⟨by decide, by decide, by decide, by decide, by decide, by decide⟩

end Abe
