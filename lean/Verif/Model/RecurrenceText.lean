import Verif.Model.Recurrence
import Verif.Model.DateTimeText

/-!
# `pycalendar.icalendar.recurrence.Recurrence`: text form and equality
-/

namespace PyCal

/-- Python `s.split(c)` for a one-character separator: at least one piece. -/
def splitOn (c : Char) : List Char → List (List Char)
  | [] => [[]]
  | x :: xs =>
    if x = c then [] :: splitOn c xs
    else match splitOn c xs with
      | [] => [[x]]
      | p :: ps => (x :: p) :: ps

namespace Rule

/-! ### Tables -/

/-- `cFreqMap`, recurrence.py:48-56 with definitions.py:211-217, 237-243. -/
def freqOf : List Char → Option DateTime.Freq
  | ['S','E','C','O','N','D','L','Y'] => some .secondly
  | ['M','I','N','U','T','E','L','Y'] => some .minutely
  | ['H','O','U','R','L','Y'] => some .hourly
  | ['D','A','I','L','Y'] => some .daily
  | ['W','E','E','K','L','Y'] => some .weekly
  | ['M','O','N','T','H','L','Y'] => some .monthly
  | ['Y','E','A','R','L','Y'] => some .yearly
  | _ => none

/-- The FREQ texts of `generate`, recurrence.py:513-532. -/
def freqText : DateTime.Freq → List Char
  | .secondly => "SECONDLY".toList
  | .minutely => "MINUTELY".toList
  | .hourly => "HOURLY".toList
  | .daily => "DAILY".toList
  | .weekly => "WEEKLY".toList
  | .monthly => "MONTHLY".toList
  | .yearly => "YEARLY".toList

/-- `cWeekdayMap`, recurrence.py:85-93 with definitions.py:260-274. -/
def weekdayOf : List Char → Option Int
  | ['S','U'] => some 0
  | ['M','O'] => some 1
  | ['T','U'] => some 2
  | ['W','E'] => some 3
  | ['T','H'] => some 4
  | ['F','R'] => some 5
  | ['S','A'] => some 6
  | _ => none

/-- The weekday texts of `generate`, recurrence.py:568-587, 601-620; any other number writes
nothing. -/
def weekdayText (d : Int) : List Char :=
  if d = 0 then ['S','U'] else if d = 1 then ['M','O'] else if d = 2 then ['T','U']
  else if d = 3 then ['W','E'] else if d = 4 then ['T','H'] else if d = 5 then ['F','R']
  else if d = 6 then ['S','A'] else []

/-! ### Parsing -/

/-- One value in `parseList`, recurrence.py:465-474.  `hi = none`: no upper bound; the call
without `min` (BYSETPOS) is `lo = 0`. -/
def parseNum (lo : Int) (hi : Option Int) (allowNegative : Bool) (token : List Char) :
    Option Int :=
  match pyInt token with
  | none => none
  | some v =>
    if !allowNegative && decide (v < 0) then none
    else if (v.natAbs : Int) < lo then none
    else match hi with
      | some h => if (v.natAbs : Int) > h then none else some v
      | none => some v

/-- `parseList`, recurrence.py:458-474 (`split` without a comma in the text gives the one token). -/
def parseList (txt : List Char) (lo : Int) (hi : Option Int) (allowNegative : Bool) :
    Option (List Int) :=
  (splitOn ',' txt).mapM (parseNum lo hi allowNegative)

/-- `c in "+-1234567890"`, recurrence.py:486-488. -/
def isNumChar (c : Char) : Bool := c = '+' || c = '-' || isDigit c

/-- One value in `parseListDW`, recurrence.py:483-506. -/
def parseDay (token : List Char) : Option (Int × Int) :=
  if (token.takeWhile isNumChar) = [] then (weekdayOf token).map fun d => (0, d)
  else
    match pyInt (token.takeWhile isNumChar) with
    | none => none
    | some n =>
      if n.natAbs < 1 ∨ n.natAbs > 53 then none
      else (weekdayOf (token.dropWhile isNumChar)).map fun d => (n, d)

/-- `parseListDW`, recurrence.py:476-506. -/
def parseListDW (txt : List Char) : Option (List (Int × Int)) :=
  (splitOn ',' txt).mapM parseDay

/-- "Only one BYxxx allowed": `None` and a parsed list are told apart by emptiness, as `parseList`
always appends at least one value. -/
def setOnce {α : Type} (old : List α) (new : Option (List α)) (f : List α → Rule) : Option Rule :=
  if old = [] then new.map f else none

/-- The body of the loop in `parse` after the token is split, recurrence.py:351-456. -/
def parsePart (sr : Bool) (r : Rule) (name value : List Char) : Option Rule :=
  if name = "FREQ".toList then (freqOf value).map fun f => { r with freq := f }
  else if name = "UNTIL".toList then
    if r.useCount then none
    else ((r.untilDate.getD {}).parse sr value false).map fun t =>
      { r with useUntil := true, untilDate := some t }
  else if name = "COUNT".toList then
    if r.useUntil then none
    else (pyInt value).bind fun n =>
      if n < 1 then none else some { r with useCount := true, count := n }
  else if name = "INTERVAL".toList then
    (pyInt value).bind fun n => if n < 1 then none else some { r with interval := n }
  else if name = "BYSECOND".toList then
    setOnce r.bySeconds (parseList value 0 (some 60) false) fun l => { r with bySeconds := l }
  else if name = "BYMINUTE".toList then
    setOnce r.byMinutes (parseList value 0 (some 59) false) fun l => { r with byMinutes := l }
  else if name = "BYHOUR".toList then
    setOnce r.byHours (parseList value 0 (some 23) false) fun l => { r with byHours := l }
  else if name = "BYDAY".toList then
    setOnce r.byDay (parseListDW value) fun l => { r with byDay := l }
  else if name = "BYMONTHDAY".toList then
    setOnce r.byMonthDay (parseList value 1 (some 31) true) fun l => { r with byMonthDay := l }
  else if name = "BYYEARDAY".toList then
    setOnce r.byYearDay (parseList value 1 (some 366) true) fun l => { r with byYearDay := l }
  else if name = "BYWEEKNO".toList then
    setOnce r.byWeekNo (parseList value 1 (some 53) true) fun l => { r with byWeekNo := l }
  else if name = "BYMONTH".toList then
    setOnce r.byMonth (parseList value 1 (some 12) false) fun l => { r with byMonth := l }
  else if name = "BYSETPOS".toList then
    setOnce r.bySetPos (parseList value 0 none true) fun l => { r with bySetPos := l }
  else if name = "WKST".toList then (weekdayOf value).map fun d => { r with weekStart := d }
  else none

/-- One token, recurrence.py:345-349: exactly one `=`. -/
def parseToken (sr : Bool) (r : Rule) (token : List Char) : Option Rule :=
  match splitOn '=' token with
  | [name, value] => parsePart sr r name value
  | _ => none

/-- `parse`, recurrence.py:333-456; `none` is `ValueError`.  `sr`: see `DateTime.parseDate`. -/
def parse (sr : Bool) (data : List Char) : Option Rule :=
  (splitOn ';' data).foldlM (parseToken sr) {}

/-! ### Generating -/

/-- The comma-separated loop of `generateList` and of the BYDAY part, recurrence.py:559-563,
631-636. -/
def commaSep : List (List Char) → List Char
  | [] => []
  | [x] => x
  | x :: xs => x ++ ',' :: commaSep xs

/-- `generateList`, recurrence.py:625-636. -/
def generateList (title : List Char) (items : List Int) : List Char :=
  if items = [] then [] else ';' :: title ++ '=' :: commaSep (items.map decInt)

/-- One BYDAY value, recurrence.py:565-587. -/
def dayText (v : Int × Int) : List Char := (if v.1 ≠ 0 then decInt v.1 else []) ++ weekdayText v.2

/-- The part after COUNT/UNTIL, recurrence.py:545-620. -/
def generateRest (r : Rule) : List Char :=
  (if r.interval > 1 then ";INTERVAL=".toList ++ decInt r.interval else []) ++
  generateList "BYSECOND".toList r.bySeconds ++
  generateList "BYMINUTE".toList r.byMinutes ++
  generateList "BYHOUR".toList r.byHours ++
  (if r.byDay = [] then [] else ";BYDAY=".toList ++ commaSep (r.byDay.map dayText)) ++
  generateList "BYMONTHDAY".toList r.byMonthDay ++
  generateList "BYYEARDAY".toList r.byYearDay ++
  generateList "BYWEEKNO".toList r.byWeekNo ++
  generateList "BYMONTH".toList r.byMonth ++
  generateList "BYSETPOS".toList r.bySetPos ++
  (if r.weekStart ≠ 1 then ";WKST=".toList ++ weekdayText r.weekStart else [])

/-- `generate`, recurrence.py:508-623.  `mUseUntil` without `mUntil` raises inside
`try ... except: pass`, which leaves the text written so far. -/
def generate (r : Rule) : List Char :=
  "FREQ=".toList ++ freqText r.freq ++
  if r.useCount then ";COUNT=".toList ++ decInt r.count ++ r.generateRest
  else if r.useUntil then
    ";UNTIL=".toList ++
      match r.untilDate with
      | none => []
      | some u => u.getText ++ r.generateRest
  else r.generateRest

/-! ### Equality and hash -/

/-- `equalsNum`, recurrence.py:218-238: equal after sorting. -/
def equalsNum (a b : List Int) : Bool :=
  decide (a.length = b.length) &&
    decide (a.insertionSort (· ≤ ·) = b.insertionSort (· ≤ ·))

/-- Order of pairs, as Python's tuples. -/
def dayLe (a b : Int × Int) : Prop := a.1 < b.1 ∨ a.1 = b.1 ∧ a.2 ≤ b.2

instance (a b : Int × Int) : Decidable (dayLe a b) := by unfold dayLe; infer_instance

/-- `equalsDayNum`, recurrence.py:240-260. -/
def equalsDayNum (a b : List (Int × Int)) : Bool :=
  decide (a.length = b.length) && decide (a.insertionSort dayLe = b.insertionSort dayLe)

/-- `self.mUntil == comp.mUntil`; `None` equals only `None` (`DateTime.__eq__`, datetime.py:173-174
and 192-193). -/
def equalsUntil (env : DateTime.TzEnv) : Option DateTime → Option DateTime → Bool
  | none, none => true
  | some a, some b => a.eq env b
  | _, _ => false

/-- `equals`, recurrence.py:200-216 (also `__eq__`, 195-198, for two rules). -/
def equals (env : DateTime.TzEnv) (a b : Rule) : Bool :=
  decide (a.freq = b.freq) && decide (a.useCount = b.useCount) && decide (a.count = b.count) &&
  decide (a.useUntil = b.useUntil) && equalsUntil env a.untilDate b.untilDate &&
  decide (a.interval = b.interval) &&
  equalsNum a.bySeconds b.bySeconds && equalsNum a.byMinutes b.byMinutes &&
  equalsNum a.byHours b.byHours && equalsDayNum a.byDay b.byDay &&
  equalsNum a.byMonthDay b.byMonthDay && equalsNum a.byYearDay b.byYearDay &&
  equalsNum a.byWeekNo b.byWeekNo && equalsNum a.byMonth b.byMonth &&
  equalsNum a.bySetPos b.bySetPos && decide (a.weekStart = b.weekStart)

/-- The tuple hashed by `__hash__`, recurrence.py:172-190: equal keys, equal hashes.  An empty list
and `None` both give `None`; `mUntil` enters by its own hash (`DateTime.hashKey`). -/
def hashKey (env : DateTime.TzEnv) (r : Rule) :=
  (r.freq, r.useCount, r.count, r.useUntil, r.untilDate.map (DateTime.hashKey env), r.interval,
    r.bySeconds, r.byMinutes, r.byHours, r.byDay, r.byMonthDay, r.byYearDay, r.byWeekNo, r.byMonth,
    r.bySetPos, r.weekStart)

end Rule
end PyCal
