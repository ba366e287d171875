import Verif.Model.Driver
/-! # The test for dates (src/lsss/zdriver.cpp), whose answer has no effect -/
set_option autoImplicit false
namespace Abe

/-- zdriver.cpp:526-549 `is_valid_date`. The arguments are `int`s. `validate_date` and `validate_range_date` (582-643) call it and do
nothing with its answer, see `validateDate`. `%` truncates; years from 1582 on are positive. -/
def isValidDate (month day year : Int) : Bool :=
  if ¬ (1582 ≤ year) then false
  else if ¬ (1 ≤ month ∧ month ≤ 12) then false
  else if ¬ (1 ≤ day ∧ day ≤ 31) then false
  else if day = 31 ∧ (month = 2 ∨ month = 4 ∨ month = 6 ∨ month = 9 ∨ month = 11) then false
  else if day = 30 ∧ month = 2 then false
  else if month = 2 ∧ day = 29 ∧ year.tmod 4 ≠ 0 then false
  else if month = 2 ∧ day = 29 ∧ year.tmod 400 = 0 then true
  else if month = 2 ∧ day = 29 ∧ year.tmod 100 = 0 then false
  else if month = 2 ∧ day = 29 ∧ year.tmod 4 = 0 then true
  else true

end Abe
