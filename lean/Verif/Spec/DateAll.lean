import Verif.Spec.Date
/-!
# Every date that can be written (specification of C155)

Years from 0 on, any day number, and month 0 for a word that is not a month.
-/
set_option autoImplicit false
namespace Abe

/-- Days from 1 January 1970 to 1 January of the year, negative for earlier years: one day more for every fourth year, but
for the hundreds, but for the four hundreds. -/
def yearStart (y : Nat) : Int := 365 * ((y : Int) - 1970) + ((y : Int) - 1969) / 4 - ((y : Int) - 1901) / 100 + ((y : Int) - 1601) / 400

/-- The day that `mktime` of POSIX counts to: from the first of the month, which is the last December if the month is 0. -/
def dayCount (t : Date) : Int := yearStart t.year + (if t.month = 0 then -31 else (daysBefore t.year t.month : Int)) + ((t.day : Int) - 1)

/-- `mktime` as POSIX describes it, in a time zone with the fixed offset `off` (seconds east of UTC), where neither the year nor the
time overflows. -/
structure EveryDay (mk : Mktime) (off : Int) : Prop where
  time : ∀ t : Date, t.year ≤ 2000000000 → t.month ≤ 12 → t.day < 2 ^ 31 →
    (mk { year := t.year - 1900, mon := t.month - 1, mday := t.day }).1 = 86400 * dayCount t - off

end Abe
