import Verif.Proof.Dates
import Verif.Props.Parser
/-!
# Dates (C26)
-/
set_option linter.unusedSimpArgs false
set_option linter.unusedSectionVars false
set_option autoImplicit false
namespace Abe
variable {mk : Mktime}

namespace DateEx

/-- `mktime` in UTC, on existing dates from 1970 on. -/
def utc : Mktime := fun t => (86400 * (Date.number ⟨(t.year + 1900).toNat, (t.mon + 1).toNat, t.mday.toNat⟩ : Int), t)

theorem utc_ok : FixedZone utc 0 where
  first := by
    rintro ⟨y, m, d⟩ _
    simp only [utc]
    have h1 : ((y : Int) - 1900 + 1900).toNat = y := by omega
    have h2 : ((m : Int) - 1 + 1).toNat = m := by omega
    rw [h1, h2, Int.toNat_natCast]
    omega
  again := by
    rintro ⟨y, m, d⟩ ⟨y', m', d'⟩ _ _ hy hm
    simp only at hy hm
    subst hy hm
    simp only [utc]
    have h1 : ((y' : Int) - 1900 + 1900).toNat = y' := by omega
    have h2 : ((m' : Int) - 1 + 1).toNat = m' := by omega
    rw [h1, h2, Int.toNat_natCast]
    omega

/-- 1 March 2026. -/
def march : Date := dateOf b!"Mar" (.flex 1) (.flex 2026)

theorem march_number : march.number = 20513 := by decide +kernel

theorem march_ok {off : Int} (h1 : -86400 ≤ off) (h2 : off ≤ 86400) : march.inRange off := by
  refine ⟨by unfold Date.ok; decide, ?_, ?_, by decide⟩ <;> rw [march_number] <;> omega

end DateEx
open DateEx TextEx LsssEx

/-- A condition on a date, anywhere in a formula, is true for a list iff the list has a date of the same
prefix that compares accordingly. -/
theorem C26_date_condition_partial {off : Int} (hz : FixedZone mk off) (op : CmpOp) (p m : Bytes) (d y : NumSyn)
    (is : List Item) (hk : ItemsOk mk is) (hp : p ≠ b!"time") (hr : (dateOf m d y).inRange off)
    (hi : ∀ m' d' y', Item.date p m' d' y' ∈ is → (dateOf m' d' y').inRange off)
    (hn : ∀ n, Item.num (p ++ b!":time") n ∉ is) (has : Bytes → Prop) :
    (Expr.cond (.date op p m d y)).holds mk has (itemsNum mk is) ↔
      ∃ m' d' y', Item.date p m' d' y' ∈ is ∧ op.compare (dateOf m' d' y') (dateOf m d y) := by
  have hb : (CondSyn.date op p m d y).base = p ++ b!":time" := by simp [CondSyn.base, dateAttr, hp]
  simp only [Expr.holds, hb, CondSyn.cond]
  rw [validateDate_eq hz hr]
  constructor
  · rintro ⟨v, w, h1, _, h3⟩
    obtain ⟨i, him, hv⟩ := itemsNum_some h1
    cases i with
    | leaf s => cases hv
    | num s n =>
      simp only [Item.value, Option.some.injEq, Prod.mk.injEq] at hv
      rw [hv.1] at him
      exact absurd him (hn n)
    | date q m' d' y' =>
      simp only [Item.value, Option.some.injEq, Prod.mk.injEq] at hv
      have hq := append_time_inj hv.1
      subst hq
      refine ⟨m', d', y', him, (cond_holds_iff op (hi _ _ _ him) hr).mp ?_⟩
      rw [← validateDate_eq hz (hi _ _ _ him), hv.2.1]
      exact h3
  · rintro ⟨m', d', y', him, hc⟩
    refine ⟨_, 32, itemsNum_date hk him, ?_, ?_⟩
    · cases op <;> simp [CmpOp.cond, NumCond.nums]
    · rw [validateDate_eq hz (hi _ _ _ him)]
      exact (cond_holds_iff op (hi _ _ _ him) hr).mpr hc

/-- The same for a range of days in one month. -/
theorem C26_date_range_partial {off : Int} (hz : FixedZone mk off) (p m : Bytes) (d1 d2 y : NumSyn)
    (is : List Item) (hk : ItemsOk mk is) (hp : p ≠ b!"time") (hr1 : (dateOf m d1 y).inRange off)
    (hr2 : (dateOf m d2 y).inRange off)
    (hi : ∀ m' d' y', Item.date p m' d' y' ∈ is → (dateOf m' d' y').inRange off)
    (hn : ∀ n, Item.num (p ++ b!":time") n ∉ is) (has : Bytes → Prop) :
    (Expr.cond (.dateRange p m d1 d2 y)).holds mk has (itemsNum mk is) ↔
      ∃ m' d' y', Item.date p m' d' y' ∈ is ∧ ¬ (dateOf m' d' y').lt (dateOf m d1 y) ∧
        ¬ (dateOf m d2 y).lt (dateOf m' d' y') := by
  have hb : (CondSyn.dateRange p m d1 d2 y).base = p ++ b!":time" := by simp [CondSyn.base, dateAttr, hp]
  simp only [Expr.holds, hb, CondSyn.cond]
  rw [rangeFirst_eq hz hr1, rangeSecond_eq hz hr1 hr2]
  constructor
  · rintro ⟨v, w, h1, _, h3, h4⟩
    obtain ⟨i, him, hv⟩ := itemsNum_some h1
    cases i with
    | leaf s => cases hv
    | num s n =>
      simp only [Item.value, Option.some.injEq, Prod.mk.injEq] at hv
      rw [hv.1] at him
      exact absurd him (hn n)
    | date q m' d' y' =>
      simp only [Item.value, Option.some.injEq, Prod.mk.injEq] at hv
      have hq := append_time_inj hv.1
      subst hq
      have hv' := validateDate_eq hz (hi _ _ _ him)
      rw [hv.2.1] at hv'
      rw [hv'] at h3 h4
      exact ⟨m', d', y', him, (cond_holds_iff .ge (hi _ _ _ him) hr1).mp h3, (cond_holds_iff .le (hi _ _ _ him) hr2).mp h4⟩
  · rintro ⟨m', d', y', him, hc1, hc2⟩
    refine ⟨_, 32, itemsNum_date hk him, ?_, ?_⟩
    · simp [NumCond.nums]
    · rw [validateDate_eq hz (hi _ _ _ him)]
      exact ⟨(cond_holds_iff .ge (hi _ _ _ him) hr1).mpr hc1, (cond_holds_iff .le (hi _ _ _ him) hr2).mpr hc2⟩

/-- A policy text that compares a date is satisfied by a list text iff the list has a date of the same prefix
that compares accordingly in the calendar. -/
theorem C26_date_text_partial (S : StdSort) {off : Int} (hz : FixedZone mk off) (op : CmpOp) (p m : Bytes)
    (d y : NumSyn) (s l : Bytes) (a : AExpr) (hs : PolicyText mk s (.cond (.date op p m d y))) (hl : ListText mk l a)
    (hp : p ≠ b!"time") (hr : (dateOf m d y).inRange off)
    (hi : ∀ m' d' y', Item.date p m' d' y' ∈ a.items → (dateOf m' d' y').inRange off)
    (hn : ∀ n, Item.num (p ++ b!":time") n ∉ a.items) :
    ∃ (P : Policy) (t : TNode) (al : AttrList) (r : Bool) (n : Int) (t' : TNode),
      createPolicyTree mk s = .ok (some P) ∧ P.root = some t ∧
      createAttributeList mk l = .ok (some al) ∧
      checkIfSatisfied S t al.attrs = .ok ((r, n), t') ∧
      (r = true ↔ ∃ m' d' y', Item.date p m' d' y' ∈ a.items ∧ op.compare (dateOf m' d' y') (dateOf m d y)) := by
  obtain ⟨P, t, al, r, n, t', h1, h2, h3, h4, h5⟩ := C13_meaning S s l _ a hs hl
  exact ⟨P, t, al, r, n, t', h1, h2, h3, h4, h5.trans (C26_date_condition_partial hz op p m d y a.items hl.items hp hr hi hn _)⟩

theorem date_text {off : Int} (hz : FixedZone mk off) (op : CmpOp) {p m s : Bytes} {d y : NumSyn}
    (hr : (dateOf m d y).inRange off) (ht : effective (lex s) = CondSyn.toks (.date op p m d y))
    (hv : CondSyn.valid (.date op p m d y) = true) (hn : NameOk (dateAttr p)) :
    PolicyText mk s (.cond (.date op p m d y)) where
  toks := ht
  canon := rfl
  valid := hv
  dates := by
    intro c hc
    simp only [Expr.conds, List.mem_singleton] at hc
    subst hc
    rintro ⟨_, n, hm, h⟩
    simp only [CondSyn.cond] at hm
    rw [validateDate_eq hz hr] at hm
    have := days_range hr
    have hn : n = ⟨toDays (86400 * ((dateOf m d y).number : Int) - off), 32⟩ := by
      cases op <;> simpa [CmpOp.cond, NumCond.nums] using hm
    subst hn
    rcases h with h | h
    · exact this.1 h
    · exact this.2 h
  names := by
    refine ⟨by simp [Expr.plain], ?_⟩
    intro c hc
    simp only [Expr.conds, List.mem_singleton] at hc
    subst hc
    exact hn

/-- In UTC: `until <= Mar 1, 2026` and `|until = Feb 5, 2024`. -/
example : FixedZone utc 0 ∧ PolicyText utc b!"until <= Mar 1, 2026" (.cond (.date .le b!"until" b!"Mar" (.flex 1) (.flex 2026))) ∧
    ListText utc b!"|until = Feb 5, 2024" (.pre (.item (.date b!"until" b!"Feb" (.flex 5) (.flex 2024)))) ∧
    march.inRange 0 ∧ (dateOf b!"Feb" (.flex 5) (.flex 2024)).ok ∧
    CmpOp.compare .le (dateOf b!"Feb" (.flex 5) (.flex 2024)) march := by
  refine ⟨utc_ok, date_text utc_ok .le (march_ok (by omega) (by omega)) (by decide +kernel) (by decide) (nameOk (by decide)),
    ⟨by decide +kernel, by decide, by decide, by simp [AExpr.items, Item.value], by simp [AExpr.items]⟩,
    march_ok (by omega) (by omega), by unfold Date.ok; decide, ?_⟩
  simp only [CmpOp.compare, Date.lt]; decide

/-- The code violates C26 for the prefix `time`: the policy asks about the attribute `time`, the list sets
`time:time`, and the date of the list is never seen. In every fixed time zone the policy `time = Mar 1, 2026`
is not satisfied by the list `|time = Mar 1, 2026`. -/
theorem C26_prefix_time_violated (S : StdSort) {off : Int} (hz : FixedZone mk off) (h1 : -86400 ≤ off) (h2 : off ≤ 86400) :
    ∃ (P : Policy) (t : TNode) (al : AttrList) (n : Int) (t' : TNode),
      createPolicyTree mk b!"time = Mar 1, 2026" = .ok (some P) ∧ P.root = some t ∧
      createAttributeList mk b!"|time = Mar 1, 2026" = .ok (some al) ∧
      checkIfSatisfied S t al.attrs = .ok ((false, n), t') := by
  have hs : PolicyText mk b!"time = Mar 1, 2026" (.cond (.date .eq b!"time" b!"Mar" (.flex 1) (.flex 2026))) :=
    date_text hz .eq (march_ok h1 h2) (by decide +kernel) (by decide) (nameOk (by decide))
  have hl : ListText mk b!"|time = Mar 1, 2026" (.pre (.item (.date b!"time" b!"Mar" (.flex 1) (.flex 2026)))) :=
    ⟨by decide +kernel, by decide, by decide, by simp [AExpr.items, Item.value], by simp [AExpr.items]⟩
  obtain ⟨P, t, al, r, n, t', g1, g2, g3, g4, g5⟩ := C13_meaning S _ _ _ _ hs hl
  have hf : r = false := by
    cases r
    · rfl
    · obtain ⟨v, w, h, _⟩ := g5.mp rfl
      simp [itemsNum, AExpr.items, Item.value, CondSyn.base, dateAttr] at h
  subst hf
  exact ⟨P, t, al, n, t', g1, g2, g3, g4⟩

/-- And the month is not checked: a policy with the date `Foo 1, 2026` is accepted, with whatever `mktime` makes
of month -1. -/
theorem C26_unknown_month_violated (h : toDays (mk { year := 126, mon := -1, mday := 1 }).1 ≠ 0 ∧
    toDays (mk { year := 126, mon := -1, mday := 1 }).1 ≠ 4294967295) :
    ∃ P, createPolicyTree mk b!"until = Foo 1, 2026" = .ok (some P) := by
  have hs : PolicyText mk b!"until = Foo 1, 2026" (.cond (.date .eq b!"until" b!"Foo" (.flex 1) (.flex 2026))) := by
    refine ⟨by decide +kernel, rfl, by decide, ?_, by simp [Expr.plain], ?_⟩
    · intro c hc
      simp only [Expr.conds, List.mem_singleton] at hc
      subst hc
      rintro ⟨_, n, hm, hn⟩
      simp only [CondSyn.cond, CmpOp.cond, NumCond.nums, List.mem_singleton] at hm
      subst hm
      have ht : mkTm (getMonth b!"Foo") (NumSyn.flex 1).val (NumSyn.flex 2026).val = { year := 126, mon := -1, mday := 1 } := by
        decide
      unfold validateDate at hn
      rw [ht] at hn
      rcases hn with hn | hn
      · exact h.1 (UInt32.toNat_inj.mp hn)
      · exact h.2 (UInt32.toNat_inj.mp hn)
    · intro c hc
      simp only [Expr.conds, List.mem_singleton] at hc
      subst hc
      exact nameOk (by decide)
  obtain ⟨P, _, _, h1, _⟩ := parsed hs
  exact ⟨P, h1⟩

/-- 1 December 2025, in UTC. -/
example : toDays 1764547200 ≠ 0 ∧ toDays 1764547200 ≠ 4294967295 := by decide

end Abe
