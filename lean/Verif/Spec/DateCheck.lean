import Verif.Spec.Date
/-! # Dates that do not exist (C129) -/
set_option autoImplicit false
namespace Abe

/-- A date of the Gregorian calendar, which begins in 1582. -/
def Date.inCalendar (t : Date) : Prop := 1582 ≤ t.year ∧ 1 ≤ t.month ∧ t.month ≤ 12 ∧ 1 ≤ t.day ∧ t.day ≤ monthDays t.year t.month

/-- Day numbers also count from the first of a month beyond its end (`Date.number`): 30 February is two days after the end of a
February of 28 days. The day and the month are numbers, the year is not before 1970. -/
def Date.written (t : Date) : Prop := 1970 ≤ t.year ∧ 1 ≤ t.month ∧ t.month ≤ 12 ∧ 1 ≤ t.day

/-- `mktime` as POSIX describes it, in a time zone with the fixed offset `off` (seconds east of UTC): days beyond the end of a month
are counted on, and the structure is replaced by the date of the calendar. -/
structure PosixZone (mk : Mktime) (off : Int) : Prop where
  time : ∀ t : Date, t.written → (mk { year := t.year - 1900, mon := t.month - 1, mday := t.day }).1 = 86400 * t.number - off
  norm : ∀ t u : Date, t.written → u.ok → u.number = t.number →
    (mk { year := t.year - 1900, mon := t.month - 1, mday := t.day }).2 = { year := u.year - 1900, mon := u.month - 1, mday := u.day }

/-- A written date in range: after the first day of 1970, seen from the zone, and early enough for 32-bit day numbers, days and
years. -/
def Date.writtenRange (off : Int) (t : Date) : Prop :=
  t.written ∧ 86400 ≤ 86400 * (t.number : Int) - off ∧ 86400 * (t.number : Int) - off < 86400 * (2 ^ 32 - 1) ∧
    t.year < 2 ^ 31 ∧ t.day < 2 ^ 31

/-- Comparison of numbers. -/
def CmpOp.onDays (op : CmpOp) (a b : Nat) : Prop :=
  match op with
  | .lt => a < b
  | .gt => b < a
  | .le => a ≤ b
  | .ge => b ≤ a
  | .eq => a = b

end Abe
