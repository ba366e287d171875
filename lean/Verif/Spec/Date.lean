import Verif.Spec.Grammar
/-!
# Days

The Gregorian calendar, counted from 1970, and what is assumed of `mktime`.
-/
set_option autoImplicit false
namespace Abe

/-- Leap year. -/
def leap (y : Nat) : Bool := (y % 4 = 0 && y % 100 ≠ 0) || y % 400 = 0

/-- Days of a month. -/
def monthDays (y m : Nat) : Nat :=
  if m = 2 then (if leap y then 29 else 28) else if m = 4 ∨ m = 6 ∨ m = 9 ∨ m = 11 then 30 else 31

/-- A date of the calendar. -/
structure Date where
  year : Nat
  month : Nat
  day : Nat
  deriving DecidableEq, Repr

/-- The date exists and is not before 1970. -/
def Date.ok (t : Date) : Prop := 1970 ≤ t.year ∧ 1 ≤ t.month ∧ t.month ≤ 12 ∧ 1 ≤ t.day ∧ t.day ≤ monthDays t.year t.month

/-- Days of the months before month `m`. -/
def daysBefore (y : Nat) : Nat → Nat
  | 0 => 0
  | m + 1 => if m = 0 then 0 else daysBefore y m + monthDays y m

/-- Days of the `n` years from 1970 on. -/
def yearsDays : Nat → Nat
  | 0 => 0
  | n + 1 => yearsDays n + daysBefore (1970 + n) 13

/-- Number of the day, 1970-01-01 is 0. -/
def Date.number (t : Date) : Nat := yearsDays (t.year - 1970) + daysBefore t.year t.month + (t.day - 1)

/-- Calendar order. -/
def Date.lt (a b : Date) : Prop :=
  a.year < b.year ∨ (a.year = b.year ∧ (a.month < b.month ∨ (a.month = b.month ∧ a.day < b.day)))

/-- `mktime` in a time zone with the fixed offset `off` (seconds east of UTC): midnight of a day, also when
only the day of the month is replaced in the structure that an earlier call has normalised. -/
structure FixedZone (mk : Mktime) (off : Int) : Prop where
  first : ∀ t : Date, t.ok → (mk { year := t.year - 1900, mon := t.month - 1, mday := t.day }).1 = 86400 * t.number - off
  again : ∀ t u : Date, t.ok → u.ok → u.year = t.year → u.month = t.month →
    (mk { (mk { year := t.year - 1900, mon := t.month - 1, mday := t.day }).2 with mday := u.day }).1 =
      86400 * u.number - off

/-- The number of a month name (0 if unknown). -/
def monthNumber (m : Bytes) : Nat :=
  if m = b!"January" ∨ m = b!"Jan" then 1 else if m = b!"February" ∨ m = b!"Feb" then 2
  else if m = b!"March" ∨ m = b!"Mar" then 3 else if m = b!"April" ∨ m = b!"Apr" then 4
  else if m = b!"May" then 5 else if m = b!"June" ∨ m = b!"Jun" then 6
  else if m = b!"July" ∨ m = b!"Jul" then 7 else if m = b!"August" ∨ m = b!"Aug" then 8
  else if m = b!"September" ∨ m = b!"Sep" then 9 else if m = b!"October" ∨ m = b!"Oct" then 10
  else if m = b!"November" ∨ m = b!"Nov" then 11 else if m = b!"December" ∨ m = b!"Dec" then 12 else 0

/-- The date written as `m d, y`. -/
def dateOf (m : Bytes) (d y : NumSyn) : Date := ⟨y.val.val.toNat, monthNumber m, d.val.val.toNat⟩

/-- The comparison of two dates. -/
def CmpOp.compare (op : CmpOp) (a b : Date) : Prop :=
  match op with
  | .lt => a.lt b
  | .gt => b.lt a
  | .le => ¬ b.lt a
  | .ge => ¬ a.lt b
  | .eq => a = b

/-- A day in range: after the first day of 1970, seen from the zone, and early enough for 32-bit day numbers
and 32-bit years. -/
def Date.inRange (off : Int) (t : Date) : Prop :=
  t.ok ∧ 86400 ≤ 86400 * (t.number : Int) - off ∧ 86400 * (t.number : Int) - off < 86400 * (2 ^ 32 - 1) ∧ t.year < 2 ^ 31

end Abe
