/-!
# Calendar arithmetic of `pycalendar.utils`

Model of the date helpers in `/repo/src/pycalendar/utils.py`.
Python 2 integers are `Int`; `/` and `%` by a positive literal are floor division
and remainder in both languages.  The memo dictionaries `cachedLeapYears` and
`cachedLeapDaysSince1970` only store the value of a pure function of the key and
are not modelled.
-/

namespace PyCal

/-- `utils.isLeapYear`, utils.py:385-395 (memo dictionary dropped). -/
def isLeapYear (year : Int) : Bool :=
  if year ≤ 1752 then decide (year % 4 = 0)
  else (decide (year % 4 = 0) && decide (year % 100 ≠ 0)) || decide (year % 400 = 0)

/-- The tuple `days_in_month` / `days_in_month_leap` indexed by month,
utils.py:358-359, and `utils.daysInMonth`, utils.py:362-368.
Simplification: Python raises `IndexError` for a month above 12 and gives the dummy `0`
at index 0; the model gives `0` for every month outside 1..12. -/
def daysInMonth (month year : Int) : Int :=
  if month = 1 then 31
  else if month = 2 then (if isLeapYear year then 29 else 28)
  else if month = 3 then 31
  else if month = 4 then 30
  else if month = 5 then 31
  else if month = 6 then 30
  else if month = 7 then 31
  else if month = 8 then 31
  else if month = 9 then 30
  else if month = 10 then 31
  else if month = 11 then 30
  else if month = 12 then 31
  else 0

/-- The tuples `days_upto_month` / `days_upto_month_leap`, utils.py:370-371, and
`utils.daysUptoMonth`, utils.py:374-380.  Same simplification as `daysInMonth`. -/
def daysUptoMonth (month year : Int) : Int :=
  if isLeapYear year then
    if month = 2 then 31 else if month = 3 then 60 else if month = 4 then 91
    else if month = 5 then 121 else if month = 6 then 152 else if month = 7 then 182
    else if month = 8 then 213 else if month = 9 then 244 else if month = 10 then 274
    else if month = 11 then 305 else if month = 12 then 335 else 0
  else
    if month = 2 then 31 else if month = 3 then 59 else if month = 4 then 90
    else if month = 5 then 120 else if month = 6 then 151 else if month = 7 then 181
    else if month = 8 then 212 else if month = 9 then 243 else if month = 10 then 273
    else if month = 11 then 304 else if month = 12 then 334 else 0

/-- `utils.leapDaysSince1970`, utils.py:400-414 (memo dictionary dropped). -/
def leapDaysSince1970 (yearOffset : Int) : Int :=
  if yearOffset > 2 then (yearOffset + 1) / 4
  else if yearOffset < -1 then (yearOffset + 1) / 4
  else 0

end PyCal
