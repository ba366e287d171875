import Verif.Spec.DateAll
import Verif.Props.DateCheck
/-!
# What every written date means (C155)
-/
set_option linter.unusedSimpArgs false
set_option linter.unusedSectionVars false
set_option autoImplicit false
namespace Abe
namespace DateAll
open DateEx TextEx LsssEx

variable {mk : Mktime} {off : Int}

/-! ### Counting days -/

theorem days13 (y : Nat) : daysBefore y 13 = if leap y then 366 else 365 := by
  cases h : leap y <;> simp [daysBefore, monthDays, h]

theorem leap_iff (y : Nat) : leap y = true ↔ (y % 4 = 0 ∧ y % 100 ≠ 0) ∨ y % 400 = 0 := by
  simp [leap]

theorem yearStart_succ (y : Nat) : yearStart (y + 1) = yearStart y + (daysBefore y 13 : Int) := by
  rw [days13]
  unfold yearStart
  by_cases h : leap y = true
  · rw [if_pos h]
    rw [leap_iff] at h
    push_cast
    omega
  · rw [if_neg h]
    rw [leap_iff] at h
    push_cast
    omega

theorem yearStart_years : ∀ n : Nat, yearStart (1970 + n) = (yearsDays n : Int)
  | 0 => by decide
  | n + 1 => by
    rw [show 1970 + (n + 1) = (1970 + n) + 1 by omega, yearStart_succ, yearStart_years n, yearsDays]
    push_cast
    rfl

theorem month_le (m : Bytes) : monthNumber m ≤ 12 := by
  unfold monthNumber
  repeat refine ite_le (by decide) ?_
  decide

theorem toInt32_neg {n : UInt32} (h : 2 ^ 31 ≤ n.toNat) : n.toInt32.toInt = (n.toNat : Int) - 2 ^ 32 := by
  show n.toBitVec.toInt = _
  rw [BitVec.toInt_eq_toNat_cond, if_neg (by show ¬ 2 * n.toNat < _; omega)]
  rfl

/-- Subtracting a small number and converting to `int`. -/
theorem sub_int {n k : UInt32} (hk : k.toNat ≤ 1900) (hn : n.toNat < 2 ^ 31) : (n - k).toInt32.toInt = (n.toNat : Int) - k.toNat := by
  by_cases h : k.toNat ≤ n.toNat
  · have e : (n - k).toNat = n.toNat - k.toNat := UInt32.toNat_sub_of_le _ _ (by rw [UInt32.le_iff_toNat_le]; exact h)
    rw [toInt32_small (by rw [e]; omega), e]
    omega
  · have e : (n - k).toNat = 2 ^ 32 - k.toNat + n.toNat := by
      rw [UInt32.toNat_sub, Nat.mod_eq_of_lt (by omega)]
    rw [toInt32_neg (by rw [e]; omega), e]
    omega

theorem mkTm_any {m : Bytes} {d y : NumSyn} (hy : (dateOf m d y).year < 2 ^ 31) (hd : (dateOf m d y).day < 2 ^ 31) :
    mkTm (getMonth m) d.val y.val =
      { year := ((dateOf m d y).year : Int) - 1900, mon := ((dateOf m d y).month : Int) - 1, mday := (dateOf m d y).day } := by
  simp only [dateOf] at hy hd ⊢
  unfold mkTm
  have hm := month_le m
  have em : (getMonth m).val.toNat = monthNumber m := by
    rw [getMonth_number, UInt32.toNat_ofNat']; omega
  have e1 := sub_int (n := y.val.val) (k := 1900) (by decide) hy
  have e2 := sub_int (n := (getMonth m).val) (k := 1) (by decide) (by rw [em]; omega)
  rw [e1, e2, em, toInt32_small hd]
  rfl

theorem toDays_mod (s : Int) : ((toDays s).toNat : Int) = s % 2 ^ 64 / 86400 % 2 ^ 32 := by
  unfold toDays
  rw [UInt32.toNat_ofNat']
  omega

/-- **C155.** The number that every written date stands for, in every POSIX zone: the seconds from 1970 to the day that the date counts
to, modulo 2^64, divided by the seconds of a day, modulo 2^32. -/
theorem C155_value (hz : EveryDay mk off) (m : Bytes) (d y : NumSyn) (hy : (dateOf m d y).year ≤ 2000000000)
    (hd : (dateOf m d y).day < 2 ^ 31) :
    ((validateDate mk (getMonth m) d.val y.val).toNat : Int) = (86400 * dayCount (dateOf m d y) - off) % 2 ^ 64 / 86400 % 2 ^ 32 := by
  unfold validateDate
  rw [mkTm_any (by omega) hd, hz.time _ hy (month_le m) hd, toDays_mod]

/-- For the dates of C129, from 1970 on and with a month, the count is the number of C129 and C26. -/
theorem C155_number (t : Date) (h : t.written) : dayCount t = (t.number : Int) := by
  obtain ⟨h1, h2, h3, h4⟩ := h
  have := yearStart_years (t.year - 1970)
  rw [show 1970 + (t.year - 1970) = t.year by omega] at this
  unfold dayCount Date.number
  rw [this, if_neg (by omega)]
  push_cast
  omega

/-- **C155 (unknown months).** A word that is not the name of a month means December of the year before. -/
theorem C155_unknown_month (hz : EveryDay mk off) (w : Bytes) (hw : monthNumber w = 0) (d y y' : NumSyn)
    (hy : (dateOf w d y).year ≤ 2000000000) (hd : (dateOf w d y).day < 2 ^ 31) (hb : y'.val.val.toNat + 1 = y.val.val.toNat) :
    validateDate mk (getMonth w) d.val y.val = validateDate mk (getMonth b!"December") d.val y'.val := by
  have h1 := C155_value hz w d y hy hd
  have h2 := C155_value hz b!"December" d y' (by simp only [dateOf] at hy ⊢; omega) hd
  have e : dayCount (dateOf w d y) = dayCount (dateOf b!"December" d y') := by
    have hs := yearStart_succ y'.val.val.toNat
    rw [hb] at hs
    have h12 : (daysBefore y'.val.val.toNat 13 : Int) = daysBefore y'.val.val.toNat 12 + 31 := by
      simp [daysBefore, monthDays]
    have hm : monthNumber b!"December" = 12 := by decide
    simp only [dayCount, dateOf, hw, hm, if_true, show (12 : Nat) ≠ 0 by decide, if_false]
    omega
  rw [e] at h1
  apply UInt32.toNat.inj
  omega

/-- **C155 (from 1970 on).** Dates from 1970 on, seen from the zone, are numbered in order for more than eleven million years. -/
theorem C155_late (hz : EveryDay mk off) (m : Bytes) (d y : NumSyn) (hy : (dateOf m d y).year ≤ 2000000000)
    (hd : (dateOf m d y).day < 2 ^ 31) (h0 : 0 ≤ 86400 * dayCount (dateOf m d y) - off)
    (h1 : 86400 * dayCount (dateOf m d y) - off < 86400 * 2 ^ 32) :
    ((validateDate mk (getMonth m) d.val y.val).toNat : Int) = dayCount (dateOf m d y) + (-off) / 86400 := by
  rw [C155_value hz m d y hy hd]
  omega

theorem days_early (off D : Int) (h0 : 86400 * D - off < 0) (h1 : -1000000 ≤ D) (ho : off ≤ 86400) :
    (86400 * D - off) % 2 ^ 64 / 86400 % 2 ^ 32 = 1158050441 + (86400 * D - off + 25216) / 86400 := by
  omega

/-- No written date counts to a day before the year 0 but the last December before it. -/
theorem count_ge (t : Date) : -719560 ≤ dayCount t := by
  have h : ∀ y : Nat, -719528 ≤ yearStart y := by
    intro y; unfold yearStart; omega
  have := h t.year
  unfold dayCount
  split <;> omega

/-- **C155 (before 1970).** A date before 1970, seen from the zone, stands for a day about 1158050441, about the year 3172600:
the seconds are negative and are divided as a number of 64 bits. -/
theorem C155_early (hz : EveryDay mk off) (m : Bytes) (d y : NumSyn) (hy : (dateOf m d y).year ≤ 2000000000)
    (hd : (dateOf m d y).day < 2 ^ 31) (h0 : 86400 * dayCount (dateOf m d y) - off < 0) (ho : off ≤ 86400) :
    ((validateDate mk (getMonth m) d.val y.val).toNat : Int) =
      1158050441 + (86400 * dayCount (dateOf m d y) - off + 25216) / 86400 := by
  rw [C155_value hz m d y hy hd]
  exact days_early off _ h0 (by have := count_ge (dateOf m d y); omega) ho

/-- **C155 (the two halves).** So a date before 1970 counts as later than every date from 1970 to day 1157000000, while earlier dates
among themselves keep their order. -/
theorem C155_early_after_late (hz : EveryDay mk off) (m m' : Bytes) (d y d' y' : NumSyn)
    (hy : (dateOf m d y).year ≤ 2000000000) (hd : (dateOf m d y).day < 2 ^ 31)
    (hy' : (dateOf m' d' y').year ≤ 2000000000) (hd' : (dateOf m' d' y').day < 2 ^ 31) (ho : -86400 ≤ off ∧ off ≤ 86400)
    (h0 : 86400 * dayCount (dateOf m d y) - off < 0) :
    (0 ≤ 86400 * dayCount (dateOf m' d' y') - off → dayCount (dateOf m' d' y') ≤ 1157000000 →
      (validateDate mk (getMonth m') d'.val y'.val).toNat < (validateDate mk (getMonth m) d.val y.val).toNat) ∧
    (86400 * dayCount (dateOf m' d' y') - off < 0 →
      ((validateDate mk (getMonth m') d'.val y'.val).toNat ≤ (validateDate mk (getMonth m) d.val y.val).toNat ↔
        dayCount (dateOf m' d' y') ≤ dayCount (dateOf m d y))) := by
  have e := C155_early hz m d y hy hd h0 ho.2
  have hc := count_ge (dateOf m d y)
  constructor
  · intro h1 h2
    have e' := C155_late hz m' d' y' hy' hd' h1 (by omega)
    omega
  · intro h1
    have e' := C155_early hz m' d' y' hy' hd' h1 ho.2
    omega

/-! ### Such a `mktime` exists -/

theorem every_exists (off : Int) : ∃ mk, EveryDay mk off := by
  refine ⟨fun t => (86400 * dayCount ⟨(t.year + 1900).toNat, (t.mon + 1).toNat, t.mday.toNat⟩ - off, t), ⟨?_⟩⟩
  rintro ⟨y, m, d⟩ _ _ _
  have e1 : ((y : Int) - 1900 + 1900).toNat = y := by omega
  have e2 : ((m : Int) - 1 + 1).toNat = m := by omega
  have e3 : (d : Int).toNat = d := by omega
  simp only [e1, e2, e3]

/-- `Foo 1, 2026` is 1 December 2025, and 1 January 1960 is before 1970. -/
example : (∃ mk, EveryDay mk 0) ∧ dayCount (dateOf b!"Foo" (.flex 1) (.flex 2026)) = dayCount ⟨2025, 12, 1⟩ ∧
    dayCount (dateOf b!"Jan" (.flex 1) (.flex 1960)) = -3653 ∧ dayCount (dateOf b!"Jan" (.flex 1) (.flex 2020)) = 18262 :=
  ⟨every_exists 0, by decide +kernel, by decide +kernel, by decide +kernel⟩

/-! ### Texts -/

/-- A condition on a date asks for a number, and a list gives one. -/
theorem C155_condition (op : CmpOp) (p m : Bytes) (d y : NumSyn) (is : List Item) (hk : ItemsOk mk is) (hp : p ≠ b!"time")
    (hn : ∀ n, Item.num (p ++ b!":time") n ∉ is) (has : Bytes → Prop) :
    (Expr.cond (.date op p m d y)).holds mk has (itemsNum mk is) ↔ ∃ m' d' y', Item.date p m' d' y' ∈ is ∧
      op.onDays (validateDate mk (getMonth m') d'.val y'.val).toNat (validateDate mk (getMonth m) d.val y.val).toNat := by
  have hb : (CondSyn.date op p m d y).base = p ++ b!":time" := by simp [CondSyn.base, dateAttr, hp]
  simp only [Expr.holds, hb, CondSyn.cond]
  constructor
  · rintro ⟨v, w, h1, _, h3⟩
    obtain ⟨i, him, hv⟩ := itemsNum_some h1
    cases i with
    | leaf s => cases hv
    | num s n =>
      simp only [Item.value, Option.some.injEq, Prod.mk.injEq] at hv
      rw [hv.1] at him
      exact absurd him (hn n)
    | date q m' d' y' =>
      simp only [Item.value, Option.some.injEq, Prod.mk.injEq] at hv
      have hq := append_time_inj hv.1
      subst hq
      refine ⟨m', d', y', him, ?_⟩
      rw [hv.2.1]
      cases op <;> simpa [CmpOp.cond, NumCond.holds, CmpOp.onDays] using h3
  · rintro ⟨m', d', y', him, hc⟩
    refine ⟨_, 32, itemsNum_date hk him, ?_, ?_⟩
    · cases op <;> simp [CmpOp.cond, NumCond.nums]
    · cases op <;> simpa [CmpOp.cond, NumCond.holds, CmpOp.onDays] using hc

theorem date_policy (op : CmpOp) {p m s : Bytes} {d y : NumSyn} (ht : effective (lex s) = CondSyn.toks (.date op p m d y))
    (hv : CondSyn.valid (.date op p m d y) = true) (hn : NameOk (dateAttr p))
    (h : (validateDate mk (getMonth m) d.val y.val).toNat ≠ 0 ∧ (validateDate mk (getMonth m) d.val y.val).toNat ≠ 2 ^ 32 - 1) :
    PolicyText mk s (.cond (.date op p m d y)) := by
  refine ⟨ht, rfl, hv, ?_, by simp [Expr.plain], ?_⟩
  · intro c hc
    simp only [Expr.conds, List.mem_singleton] at hc
    subst hc
    rintro ⟨_, n, hm, hn⟩
    have hm : n = ⟨validateDate mk (getMonth m) d.val y.val, 32⟩ := by
      cases op <;> simpa [CondSyn.cond, CmpOp.cond, NumCond.nums] using hm
    subst hm
    rcases hn with hn | hn
    · exact h.1 hn
    · exact h.2 hn
  · intro c hc
    simp only [Expr.conds, List.mem_singleton] at hc
    subst hc
    exact hn

/-- **The code violates C129**: the test for dates before 1970 has no effect (zdriver.cpp:603-605), and 1 January 1960 is after
1 January 2020: in every POSIX zone within a day of UTC the policy `x > Jan 1, 2020` is satisfied by the list `|x = Jan 1, 1960`. -/
theorem C129_before_1970_violated (S : StdSort) (hz : EveryDay mk off) (h1 : -86400 ≤ off) (h2 : off ≤ 86400) :
    (⟨1960, 1, 1⟩ : Date).lt ⟨2020, 1, 1⟩ ∧
    ∃ (P : Policy) (t : TNode) (al : AttrList) (n : Int) (t' : TNode),
      createPolicyTree mk b!"x > Jan 1, 2020" = .ok (some P) ∧ P.root = some t ∧
      createAttributeList mk b!"|x = Jan 1, 1960" = .ok (some al) ∧
      checkIfSatisfied S t al.attrs = .ok ((true, n), t') := by
  refine ⟨by simp [Date.lt], ?_⟩
  have c1 : dayCount (dateOf b!"Jan" (.flex 1) (.flex 1960)) = -3653 := by decide +kernel
  have c2 : dayCount (dateOf b!"Jan" (.flex 1) (.flex 2020)) = 18262 := by decide +kernel
  have v1 := C155_late hz b!"Jan" (.flex 1) (.flex 2020) (by decide) (by decide) (by rw [c2]; omega) (by rw [c2]; omega)
  have v2 := C155_early hz b!"Jan" (.flex 1) (.flex 1960) (by decide) (by decide) (by rw [c1]; omega) h2
  rw [c2] at v1
  rw [c1] at v2
  have hs : PolicyText mk b!"x > Jan 1, 2020" (.cond (.date .gt b!"x" b!"Jan" (.flex 1) (.flex 2020))) :=
    date_policy .gt (by decide +kernel) (by decide) (nameOk (by decide)) ⟨by omega, by omega⟩
  have hl : ListText mk b!"|x = Jan 1, 1960" (.pre (.item (.date b!"x" b!"Jan" (.flex 1) (.flex 1960)))) :=
    ⟨by decide +kernel, by decide, by decide, by simp [AExpr.items, Item.value], by simp [AExpr.items]⟩
  obtain ⟨P, t, al, r, n, t', g1, g2, g3, g4, g5⟩ := C13_meaning S _ _ _ _ hs hl
  have ht : r = true := by
    refine g5.mpr ((C155_condition .gt _ _ _ _ _ hl.items (by decide) (by simp [AExpr.items]) _).mpr ?_)
    refine ⟨_, _, _, List.mem_singleton.mpr rfl, ?_⟩
    simp only [CmpOp.onDays]
    omega
  subst ht
  exact ⟨P, t, al, n, t', g1, g2, g3, g4⟩

end DateAll
end Abe
