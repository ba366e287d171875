import Verif.Proof.Dates
import Verif.Model.DateCheck
import Verif.Spec.DateCheck
/-! # C129: lemmas on dates that do not exist -/
set_option linter.unusedSimpArgs false
set_option linter.unusedSectionVars false
set_option autoImplicit false
namespace Abe

theorem isValidDate_iff (t : Date) : isValidDate t.month t.day t.year = true ↔ t.inCalendar := by
  obtain ⟨y, m, d⟩ := t
  have e : ∀ k : Nat, ((y : Int).tmod k) = ((y % k : Nat) : Int) := fun k => by
    rw [Int.tmod_eq_emod_of_nonneg (by omega)]; rfl
  have e4 : (y : Int).tmod 4 = ((y % 4 : Nat) : Int) := e 4
  have e100 : (y : Int).tmod 100 = ((y % 100 : Nat) : Int) := e 100
  have e400 : (y : Int).tmod 400 = ((y % 400 : Nat) : Int) := e 400
  simp only [isValidDate, Date.inCalendar, monthDays, leap, e4, e100, e400]
  have i1 : (((y % 4 : Nat) : Int) = 0) ↔ y % 4 = 0 := by omega
  have i2 : (((y % 100 : Nat) : Int) = 0) ↔ y % 100 = 0 := by omega
  have i3 : (((y % 400 : Nat) : Int) = 0) ↔ y % 400 = 0 := by omega
  simp only [i1, i2, i3, ne_eq, Bool.or_eq_true, Bool.and_eq_true, decide_eq_true_eq, Bool.not_eq_true', decide_eq_false_iff_not]
  repeat' split
  all_goals simp only [Bool.false_eq_true, false_iff, true_iff]
  all_goals omega

theorem monthDays_pos (y m : Nat) : 28 ≤ monthDays y m := by
  unfold monthDays
  repeat' (first | omega | split)

/-- Every day has a date. -/
theorem date_of_number : ∀ n : Nat, ∃ t : Date, t.ok ∧ t.number = n
  | 0 => ⟨⟨1970, 1, 1⟩, ⟨by decide, by decide, by decide, by decide, by decide⟩, by decide⟩
  | n + 1 => by
    obtain ⟨⟨y, m, d⟩, ⟨h1, h2, h3, h4, h5⟩, h⟩ := date_of_number n
    simp only [Date.number] at h1 h2 h3 h4 h5 h
    by_cases c1 : d < monthDays y m
    · exact ⟨⟨y, m, d + 1⟩, ⟨h1, h2, h3, by simp, Nat.succ_le_of_lt c1⟩, by simp only [Date.number]; omega⟩
    · have hd : d = monthDays y m := by omega
      by_cases c2 : m < 12
      · refine ⟨⟨y, m + 1, 1⟩, ⟨h1, by simp, Nat.succ_le_of_lt c2, by simp, ?_⟩, ?_⟩
        · have := monthDays_pos y (m + 1)
          show 1 ≤ monthDays y (m + 1)
          omega
        · have hm : m ≠ 0 := by omega
          simp only [Date.number, daysBefore, if_neg hm]
          omega
      · have hm : m = 12 := by omega
        subst hm
        refine ⟨⟨y + 1, 1, 1⟩, ⟨(by simp only; omega), (by simp), (by simp), (by simp), ?_⟩, ?_⟩
        · have := monthDays_pos (y + 1) 1
          show 1 ≤ monthDays (y + 1) 1
          omega
        · have e : y + 1 - 1970 = (y - 1970) + 1 := by omega
          have e2 : 1970 + (y - 1970) = y := by omega
          have e3 : daysBefore y 13 = daysBefore y 12 + monthDays y 12 := rfl
          have e4 : daysBefore (y + 1) 1 = 0 := rfl
          simp only [Date.number]
          rw [e, yearsDays, e2, e3, e4]
          omega

theorem written_of_ok {t : Date} (h : t.ok) : t.written := ⟨h.1, h.2.1, h.2.2.1, h.2.2.2.1⟩

/-- `mktime` of POSIX in UTC exists. -/
theorem posix_exists : ∃ mk, PosixZone mk 0 := by
  classical
  let dat : Tm → Date := fun t => ⟨(t.year + 1900).toNat, (t.mon + 1).toNat, t.mday.toNat⟩
  let nrm : Tm → Date := fun t => (date_of_number (dat t).number).choose
  refine ⟨fun t => (86400 * ((dat t).number : Int),
    { year := ((nrm t).year : Int) - 1900, mon := ((nrm t).month : Int) - 1, mday := ((nrm t).day : Int) }), ?_⟩
  have hd : ∀ t : Date, dat { year := t.year - 1900, mon := t.month - 1, mday := t.day } = t := by
    rintro ⟨y, m, d⟩
    simp only [dat, Date.mk.injEq]
    refine ⟨?_, ?_, ?_⟩ <;> omega
  constructor
  · intro t _
    simp only [hd]
    omega
  · intro t u _ hu hn
    have hs := (date_of_number (dat { year := t.year - 1900, mon := t.month - 1, mday := t.day }).number).choose_spec
    have : nrm { year := t.year - 1900, mon := t.month - 1, mday := t.day } = u := by
      refine (Date.number_inj hs.1 hu).mp ?_
      rw [hs.2, hd, hn]
    simp only [this]

/-- A POSIX zone is a zone as C26 assumes it. -/
theorem PosixZone.fixed {mk : Mktime} {off : Int} (h : PosixZone mk off) : FixedZone mk off where
  first := fun t ht => h.time t (written_of_ok ht)
  again := by
    intro t u ht hu hy hm
    rw [h.norm t t (written_of_ok ht) ht rfl, ← hy, ← hm]
    exact h.time u (written_of_ok hu)

/-- The structure handed to `mktime` for a written date. -/
theorem mkTm_written {m : Bytes} {d y : NumSyn} (h : (dateOf m d y).written) (hy : (dateOf m d y).year < 2 ^ 31)
    (hd : (dateOf m d y).day < 2 ^ 31) : mkTm (getMonth m) d.val y.val =
      { year := ((dateOf m d y).year : Int) - 1900, mon := ((dateOf m d y).month : Int) - 1, mday := (dateOf m d y).day } := by
  obtain ⟨h1, h2, h3, h4⟩ := h
  simp only [dateOf] at h1 h2 h3 h4 hy hd ⊢
  unfold mkTm
  rw [getMonth_number]
  have e1 : (y.val.val - 1900).toNat = y.val.val.toNat - 1900 := by
    rw [UInt32.toNat_sub_of_le _ _ (by rw [UInt32.le_iff_toNat_le]; simp; omega)]; rfl
  have e2 : (UInt32.ofNat (monthNumber m) - 1).toNat = monthNumber m - 1 := by
    have hm : (UInt32.ofNat (monthNumber m)).toNat = monthNumber m := by
      rw [UInt32.toNat_ofNat']; omega
    rw [UInt32.toNat_sub_of_le _ _ (by rw [UInt32.le_iff_toNat_le, hm]; simpa using h2), hm]; rfl
  rw [toInt32_small (n := y.val.val - 1900) (by rw [e1]; omega), toInt32_small (n := UInt32.ofNat (monthNumber m) - 1) (by rw [e2]; omega),
    toInt32_small (n := d.val.val) (by omega), e1, e2]
  have i1 : ((y.val.val.toNat - 1900 : Nat) : Int) = (y.val.val.toNat : Int) - 1900 := by omega
  have i2 : ((monthNumber m - 1 : Nat) : Int) = (monthNumber m : Int) - 1 := by omega
  rw [i1, i2]

theorem written_days {mk : Mktime} {off : Int} (hz : PosixZone mk off) {m : Bytes} {d y : NumSyn}
    (h : (dateOf m d y).writtenRange off) :
    validateDate mk (getMonth m) d.val y.val = toDays (86400 * ((dateOf m d y).number : Int) - off) := by
  unfold validateDate
  rw [mkTm_written h.1 h.2.2.2.1 h.2.2.2.2, hz.time _ h.1]

theorem written_toNat {off : Int} {t : Date} (h : t.writtenRange off) :
    ((toDays (86400 * (t.number : Int) - off)).toNat : Int) = t.number + (-off) / 86400 := by
  obtain ⟨_, h1, h2, _⟩ := h
  rw [toDays_toNat (by omega) h2]
  omega

theorem written_ne {off : Int} {t : Date} (h : t.writtenRange off) :
    (toDays (86400 * (t.number : Int) - off)).toNat ≠ 0 ∧ (toDays (86400 * (t.number : Int) - off)).toNat ≠ 2 ^ 32 - 1 := by
  have h1 := h.2.1
  have h2 := h.2.2.1
  have h3 := toDays_toNat (s := 86400 * (t.number : Int) - off) (by omega) h2
  omega

/-- The second date of a range: its day is put into the normalised first date. -/
theorem rangeSecond_days {mk : Mktime} {off : Int} (hz : PosixZone mk off) {m : Bytes} {d1 d2 y : NumSyn} {u : Date}
    (h1 : (dateOf m d1 y).writtenRange off) (hu : u.ok) (hn : u.number = (dateOf m d1 y).number) (h2 : 1 ≤ d2.val.val.toNat)
    (h3 : d2.val.val.toNat < 2 ^ 31) :
    toDays (mk { (mk (mkTm (getMonth m) d1.val y.val)).2 with mday := d2.val.val.toInt32.toInt }).1 =
      toDays (86400 * ((Date.number ⟨u.year, u.month, d2.val.val.toNat⟩ : Nat) : Int) - off) := by
  rw [mkTm_written h1.1 h1.2.2.2.1 h1.2.2.2.2, hz.norm _ u h1.1 hu hn, toInt32_small h3]
  exact congrArg toDays (hz.time ⟨u.year, u.month, d2.val.val.toNat⟩ ⟨hu.1, hu.2.1, hu.2.2.1, h2⟩)

theorem onDays_iff (op : CmpOp) {off : Int} {a b : Date} (ha : a.writtenRange off) (hb : b.writtenRange off) :
    (op.cond ⟨toDays (86400 * (b.number : Int) - off), 32⟩).holds (toDays (86400 * (a.number : Int) - off)).toNat ↔
      op.onDays a.number b.number := by
  have h1 := written_toNat ha
  have h2 := written_toNat hb
  cases op <;> simp only [CmpOp.cond, NumCond.holds, CmpOp.onDays] <;> omega

end Abe
