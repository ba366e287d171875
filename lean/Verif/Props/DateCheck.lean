import Verif.Proof.DateCheck
import Verif.Props.Dates
/-!
# Dates that do not exist (C129)
-/
set_option linter.unusedSimpArgs false
set_option linter.unusedSectionVars false
set_option autoImplicit false
namespace Abe
variable {mk : Mktime}
open DateEx TextEx LsssEx

/-- The test for dates accepts exactly the dates of the Gregorian calendar, for all integers. -/
theorem C129_test (m d y : Int) :
    isValidDate m d y = true ↔ ∃ t : Date, t.inCalendar ∧ (t.month : Int) = m ∧ (t.day : Int) = d ∧ (t.year : Int) = y := by
  constructor
  · intro h
    have hm : 0 ≤ m ∧ 0 ≤ d ∧ 0 ≤ y := by
      unfold isValidDate at h
      split at h
      · cases h
      · split at h
        · cases h
        · split at h
          · cases h
          · omega
    refine ⟨⟨y.toNat, m.toNat, d.toNat⟩, ?_, by simp only; omega, by simp only; omega, by simp only; omega⟩
    rw [← isValidDate_iff]
    simp only
    rw [Int.toNat_of_nonneg hm.1, Int.toNat_of_nonneg hm.2.1, Int.toNat_of_nonneg hm.2.2]
    exact h
  · rintro ⟨t, h, rfl, rfl, rfl⟩
    exact (isValidDate_iff t).mpr h

/-- Leap days of 2000 and 2024, none in 1900 or 2021; nothing before 1582. -/
example : isValidDate 2 29 2000 = true ∧ isValidDate 2 29 2024 = true ∧ isValidDate 2 29 1900 = false ∧
    isValidDate 2 29 2021 = false ∧ isValidDate 12 31 1581 = false := by decide

/-- The day number that the driver computes for a written date, whether or not the date exists: counted on from the first of the
month, and shifted by the time zone. -/
theorem C129_day_number_partial {off : Int} (hz : PosixZone mk off) (m : Bytes) (d y : NumSyn) (h : (dateOf m d y).writtenRange off) :
    ((validateDate mk (getMonth m) d.val y.val).toNat : Int) = (dateOf m d y).number + (-off) / 86400 := by
  rw [written_days hz h]
  exact written_toNat h

/-- 30 February 2021, in UTC; such a `mktime` exists. -/
example : (∃ mk, PosixZone mk 0) ∧ (dateOf b!"Feb" (.flex 30) (.flex 2021)).writtenRange 0 := by
  refine ⟨posix_exists, ⟨⟨by decide, by decide, by decide, by decide⟩, ?_, ?_, by decide, by decide⟩⟩ <;> decide +kernel

/-- Two written dates have the same effect iff they count to the same day. -/
theorem C129_same_day_partial {off : Int} (hz : PosixZone mk off) (m m' : Bytes) (d y d' y' : NumSyn)
    (h : (dateOf m d y).writtenRange off) (h' : (dateOf m' d' y').writtenRange off) :
    validateDate mk (getMonth m) d.val y.val = validateDate mk (getMonth m') d'.val y'.val ↔
      (dateOf m d y).number = (dateOf m' d' y').number := by
  have h1 := C129_day_number_partial hz m d y h
  have h2 := C129_day_number_partial hz m' d' y' h'
  rw [← UInt32.toNat_inj]
  omega

/-- 30 February and 2 March 2021. -/
example : (dateOf b!"Feb" (.flex 30) (.flex 2021)).number = (dateOf b!"Mar" (.flex 2) (.flex 2021)).number := by decide +kernel

/-- A condition on a written date, anywhere in a formula, compares day numbers. -/
theorem C129_condition_partial {off : Int} (hz : PosixZone mk off) (op : CmpOp) (p m : Bytes) (d y : NumSyn)
    (is : List Item) (hk : ItemsOk mk is) (hp : p ≠ b!"time") (hr : (dateOf m d y).writtenRange off)
    (hi : ∀ m' d' y', Item.date p m' d' y' ∈ is → (dateOf m' d' y').writtenRange off)
    (hn : ∀ n, Item.num (p ++ b!":time") n ∉ is) (has : Bytes → Prop) :
    (Expr.cond (.date op p m d y)).holds mk has (itemsNum mk is) ↔
      ∃ m' d' y', Item.date p m' d' y' ∈ is ∧ op.onDays (dateOf m' d' y').number (dateOf m d y).number := by
  have hb : (CondSyn.date op p m d y).base = p ++ b!":time" := by simp [CondSyn.base, dateAttr, hp]
  simp only [Expr.holds, hb, CondSyn.cond]
  rw [written_days hz hr]
  constructor
  · rintro ⟨v, w, h1, _, h3⟩
    obtain ⟨i, him, hv⟩ := itemsNum_some h1
    cases i with
    | leaf s => cases hv
    | num s n =>
      simp only [Item.value, Option.some.injEq, Prod.mk.injEq] at hv
      rw [hv.1] at him
      exact absurd him (hn n)
    | date q m' d' y' =>
      simp only [Item.value, Option.some.injEq, Prod.mk.injEq] at hv
      have hq := append_time_inj hv.1
      subst hq
      refine ⟨m', d', y', him, (onDays_iff op (hi _ _ _ him) hr).mp ?_⟩
      rw [← written_days hz (hi _ _ _ him), hv.2.1]
      exact h3
  · rintro ⟨m', d', y', him, hc⟩
    refine ⟨_, 32, itemsNum_date hk him, ?_, ?_⟩
    · cases op <;> simp [CmpOp.cond, NumCond.nums]
    · rw [written_days hz (hi _ _ _ him)]
      exact (onDays_iff op (hi _ _ _ him) hr).mpr hc

/-- A range of days, anywhere in a formula. `u` is the calendar date of the first day; the second day is counted in the month of `u`,
which is the written month only if the first date exists. -/
theorem C129_range_partial {off : Int} (hz : PosixZone mk off) (p m : Bytes) (d1 d2 y : NumSyn) (u : Date)
    (is : List Item) (hk : ItemsOk mk is) (hp : p ≠ b!"time") (hr1 : (dateOf m d1 y).writtenRange off)
    (hu : u.ok) (hun : u.number = (dateOf m d1 y).number)
    (hr2 : (Date.mk u.year u.month d2.val.val.toNat).writtenRange off)
    (hi : ∀ m' d' y', Item.date p m' d' y' ∈ is → (dateOf m' d' y').writtenRange off)
    (hn : ∀ n, Item.num (p ++ b!":time") n ∉ is) (has : Bytes → Prop) :
    (Expr.cond (.dateRange p m d1 d2 y)).holds mk has (itemsNum mk is) ↔
      ∃ m' d' y', Item.date p m' d' y' ∈ is ∧ (dateOf m d1 y).number ≤ (dateOf m' d' y').number ∧
        (dateOf m' d' y').number ≤ (Date.mk u.year u.month d2.val.val.toNat).number := by
  have hb : (CondSyn.dateRange p m d1 d2 y).base = p ++ b!":time" := by simp [CondSyn.base, dateAttr, hp]
  have hf : toDays (mk (mkTm (getMonth m) d1.val y.val)).1 = toDays (86400 * ((dateOf m d1 y).number : Int) - off) :=
    written_days hz hr1
  simp only [Expr.holds, hb, CondSyn.cond]
  rw [hf, rangeSecond_days hz hr1 hu hun hr2.1.2.2.2 hr2.2.2.2.2]
  constructor
  · rintro ⟨v, w, h1, _, h3, h4⟩
    obtain ⟨i, him, hv⟩ := itemsNum_some h1
    cases i with
    | leaf s => cases hv
    | num s n =>
      simp only [Item.value, Option.some.injEq, Prod.mk.injEq] at hv
      rw [hv.1] at him
      exact absurd him (hn n)
    | date q m' d' y' =>
      simp only [Item.value, Option.some.injEq, Prod.mk.injEq] at hv
      have hq := append_time_inj hv.1
      subst hq
      have hv' := written_days hz (hi _ _ _ him)
      rw [hv.2.1] at hv'
      rw [hv'] at h3 h4
      exact ⟨m', d', y', him, (onDays_iff .ge (hi _ _ _ him) hr1).mp h3, (onDays_iff .le (hi _ _ _ him) hr2).mp h4⟩
  · rintro ⟨m', d', y', him, hc1, hc2⟩
    refine ⟨_, 32, itemsNum_date hk him, ?_, ?_⟩
    · simp [NumCond.nums]
    · rw [written_days hz (hi _ _ _ him)]
      exact ⟨(onDays_iff .ge (hi _ _ _ him) hr1).mpr hc1, (onDays_iff .le (hi _ _ _ him) hr2).mpr hc2⟩

/-- From 30 February 2021 (2 March) to day 31 of that month: the range ends on 31 March. -/
example : (⟨2021, 3, 2⟩ : Date).ok ∧ (⟨2021, 3, 2⟩ : Date).number = (dateOf b!"Feb" (.flex 30) (.flex 2021)).number ∧
    (dateOf b!"Feb" (.flex 31) (.flex 2021)).number = (⟨2021, 3, 3⟩ : Date).number := by
  refine ⟨by unfold Date.ok; decide, ?_, ?_⟩ <;> decide +kernel

theorem written_near {off : Int} {t : Date} (h1 : -86400 ≤ off) (h2 : off ≤ 86400) (hw : t.written)
    (hn : 18000 ≤ t.number ∧ t.number < 20000) (hy : t.year < 2 ^ 31 ∧ t.day < 2 ^ 31) : t.writtenRange off :=
  ⟨hw, by omega, by omega, hy.1, hy.2⟩

/-- The code violates C129: the answer of the test is not used. In every fixed time zone the policy `x = Feb 30, 2021`, whose date
the test rejects, is accepted and satisfied by the list `|x = Mar 2, 2021`. -/
theorem C129_impossible_violated (S : StdSort) {off : Int} (hz : PosixZone mk off) (h1 : -86400 ≤ off) (h2 : off ≤ 86400) :
    isValidDate 2 30 2021 = false ∧
    ∃ (P : Policy) (t : TNode) (al : AttrList) (n : Int) (t' : TNode),
      createPolicyTree mk b!"x = Feb 30, 2021" = .ok (some P) ∧ P.root = some t ∧
      createAttributeList mk b!"|x = Mar 2, 2021" = .ok (some al) ∧
      checkIfSatisfied S t al.attrs = .ok ((true, n), t') := by
  refine ⟨by decide, ?_⟩
  have hr : (dateOf b!"Feb" (.flex 30) (.flex 2021)).writtenRange off :=
    written_near h1 h2 ⟨by decide, by decide, by decide, by decide⟩ (by decide +kernel) (by decide)
  have hr' : (dateOf b!"Mar" (.flex 2) (.flex 2021)).writtenRange off :=
    written_near h1 h2 ⟨by decide, by decide, by decide, by decide⟩ (by decide +kernel) (by decide)
  have hs : PolicyText mk b!"x = Feb 30, 2021" (.cond (.date .eq b!"x" b!"Feb" (.flex 30) (.flex 2021))) := by
    refine ⟨by decide +kernel, rfl, by decide, ?_, by simp [Expr.plain], ?_⟩
    · intro c hc
      simp only [Expr.conds, List.mem_singleton] at hc
      subst hc
      rintro ⟨_, n, hm, hn⟩
      simp only [CondSyn.cond, CmpOp.cond, NumCond.nums, List.mem_singleton] at hm
      rw [written_days hz hr] at hm
      subst hm
      rcases hn with hn | hn
      · exact (written_ne hr).1 hn
      · exact (written_ne hr).2 hn
    · intro c hc
      simp only [Expr.conds, List.mem_singleton] at hc
      subst hc
      exact nameOk (by decide)
  have hl : ListText mk b!"|x = Mar 2, 2021" (.pre (.item (.date b!"x" b!"Mar" (.flex 2) (.flex 2021)))) :=
    ⟨by decide +kernel, by decide, by decide, by simp [AExpr.items, Item.value], by simp [AExpr.items]⟩
  obtain ⟨P, t, al, r, n, t', g1, g2, g3, g4, g5⟩ := C13_meaning S _ _ _ _ hs hl
  have ht : r = true := by
    refine g5.mpr ((C129_condition_partial hz .eq _ _ _ _ _ hl.items (by decide) hr ?_ (by simp [AExpr.items]) _).mpr ?_)
    · intro m' d' y' hm
      simp only [AExpr.items, List.mem_singleton, Item.date.injEq] at hm
      obtain ⟨_, rfl, rfl, rfl⟩ := hm
      exact hr'
    · exact ⟨_, _, _, List.mem_singleton.mpr rfl, by simp only [CmpOp.onDays]; decide +kernel⟩
  subst ht
  exact ⟨P, t, al, n, t', g1, g2, g3, g4⟩

/-- And a range whose first date does not exist moves to another month: the policy `x = Feb 30-31, 2021` is satisfied by the list
`|x = Mar 20, 2021`, in every fixed time zone, although 31 February counts to 3 March. -/
theorem C129_range_violated (S : StdSort) {off : Int} (hz : PosixZone mk off) (h1 : -86400 ≤ off) (h2 : off ≤ 86400) :
    (dateOf b!"Feb" (.flex 31) (.flex 2021)).number < (dateOf b!"Mar" (.flex 20) (.flex 2021)).number ∧
    ∃ (P : Policy) (t : TNode) (al : AttrList) (n : Int) (t' : TNode),
      createPolicyTree mk b!"x = Feb 30-31, 2021" = .ok (some P) ∧ P.root = some t ∧
      createAttributeList mk b!"|x = Mar 20, 2021" = .ok (some al) ∧
      checkIfSatisfied S t al.attrs = .ok ((true, n), t') := by
  refine ⟨by decide +kernel, ?_⟩
  have hr : (dateOf b!"Feb" (.flex 30) (.flex 2021)).writtenRange off :=
    written_near h1 h2 ⟨by decide, by decide, by decide, by decide⟩ (by decide +kernel) (by decide)
  have hu : (⟨2021, 3, 2⟩ : Date).ok := by unfold Date.ok; decide
  have hun : (⟨2021, 3, 2⟩ : Date).number = (dateOf b!"Feb" (.flex 30) (.flex 2021)).number := by decide +kernel
  have hr2 : (Date.mk 2021 3 (NumSyn.flex 31).val.val.toNat).writtenRange off :=
    written_near h1 h2 ⟨by decide, by decide, by decide, by decide⟩ (by decide +kernel) (by decide)
  have hr' : (dateOf b!"Mar" (.flex 20) (.flex 2021)).writtenRange off :=
    written_near h1 h2 ⟨by decide, by decide, by decide, by decide⟩ (by decide +kernel) (by decide)
  have hs : PolicyText mk b!"x = Feb 30-31, 2021" (.cond (.dateRange b!"x" b!"Feb" (.flex 30) (.flex 31) (.flex 2021))) := by
    refine ⟨by decide +kernel, rfl, by decide, ?_, by simp [Expr.plain], ?_⟩
    · intro c hc
      simp only [Expr.conds, List.mem_singleton] at hc
      subst hc
      rintro ⟨_, n, hm, hn⟩
      have hf : toDays (mk (mkTm (getMonth b!"Feb") (NumSyn.flex 30).val (NumSyn.flex 2021).val)).1 =
        toDays (86400 * ((dateOf b!"Feb" (.flex 30) (.flex 2021)).number : Int) - off) := written_days hz hr
      simp only [CondSyn.cond, NumCond.nums, List.mem_cons, List.not_mem_nil, or_false] at hm
      rw [hf, rangeSecond_days hz hr hu hun (by decide) (by decide)] at hm
      rcases hm with rfl | rfl
      · rcases hn with hn | hn
        · exact (written_ne hr).1 hn
        · exact (written_ne hr).2 hn
      · rcases hn with hn | hn
        · exact (written_ne hr2).1 hn
        · exact (written_ne hr2).2 hn
    · intro c hc
      simp only [Expr.conds, List.mem_singleton] at hc
      subst hc
      exact nameOk (by decide)
  have hl : ListText mk b!"|x = Mar 20, 2021" (.pre (.item (.date b!"x" b!"Mar" (.flex 20) (.flex 2021)))) :=
    ⟨by decide +kernel, by decide, by decide, by simp [AExpr.items, Item.value], by simp [AExpr.items]⟩
  obtain ⟨P, t, al, r, n, t', g1, g2, g3, g4, g5⟩ := C13_meaning S _ _ _ _ hs hl
  have ht : r = true := by
    refine g5.mpr ((C129_range_partial hz _ _ _ _ _ ⟨2021, 3, 2⟩ _ hl.items (by decide) hr hu hun hr2 ?_ (by simp [AExpr.items]) _).mpr ?_)
    · intro m' d' y' hm
      simp only [AExpr.items, List.mem_singleton, Item.date.injEq] at hm
      obtain ⟨_, rfl, rfl, rfl⟩ := hm
      exact hr'
    · exact ⟨_, _, _, List.mem_singleton.mpr rfl, by decide +kernel, by decide +kernel⟩
  subst ht
  exact ⟨P, t, al, n, t', g1, g2, g3, g4⟩

/-- A `mktime` of POSIX exists, and dates in range and lists without contradiction are those of the witnesses above. -/
example : ∃ mk, PosixZone mk 0 ∧ ItemsOk mk [.date b!"x" b!"Mar" (.flex 20) (.flex 2021)] := by
  obtain ⟨mk, h⟩ := posix_exists
  exact ⟨mk, h, by simp [Item.value], by simp⟩

end Abe
