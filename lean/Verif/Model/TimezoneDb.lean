import Verif.Model.RecurrenceText

/-!
# The time zone database

`pycalendar.timezonedb`.  Paths are `List Char`; `os.path.join` and `os.path.normpath` are those of
Python 2.7's `posixpath` module, which is not part of the repository.
-/

namespace PyCal

/-! ## Paths -/

/-- `os.path.join(a, b)`, posixpath.py of Python 2.7. -/
def pathJoin (a b : List Char) : List Char :=
  if b.head? = some '/' then b
  else if a = [] ∨ a.getLast? = some '/' then a ++ b
  else a ++ '/' :: b

/-- The loop of `os.path.normpath` over the components; `acc` is `new_comps`. -/
def normLoop (slash : Bool) : List (List Char) → List (List Char) → List (List Char)
  | acc, [] => acc
  | acc, c :: cs =>
    if c = [] ∨ c = ['.'] then normLoop slash acc cs
    else if c ≠ ['.', '.'] ∨ (slash = false ∧ acc = []) ∨ acc.getLast? = some ['.', '.'] then
      normLoop slash (acc ++ [c]) cs
    else normLoop slash acc.dropLast cs

/-- `'/'.join(comps)`. -/
def joinSlash : List (List Char) → List Char
  | [] => []
  | [c] => c
  | c :: cs => c ++ '/' :: joinSlash cs

/-- `initial_slashes` of `os.path.normpath`: two slashes are kept, three or more are one. -/
def initialSlashes : List Char → List Char
  | '/' :: '/' :: '/' :: _ => ['/']
  | '/' :: '/' :: _ => ['/', '/']
  | '/' :: _ => ['/']
  | _ => []

/-- `os.path.normpath(path)`, posixpath.py of Python 2.7. -/
def normpath (path : List Char) : List Char :=
  if path = [] then ['.']
  else
    let slashes := initialSlashes path
    let path := slashes ++ joinSlash (normLoop (decide (slashes ≠ [])) [] (splitOn '/' path))
    if path = [] then ['.'] else path

/-- The path that `cacheTimezone` looks for and opens, timezonedb.py:117-119; `none` when it looks
for none.  `tzid` is the text `"%s" % (tzid,)`. -/
def tzPath (dbpath tzid : List Char) : Option (List Char) :=
  let path := normpath (pathJoin dbpath (tzid ++ ".ics".toList))
  if dbpath.isPrefixOf path then some path else none

/-! ## The database -/

/-- A VTIMEZONE component: its TZID (`getID()`) and which object it is. -/
structure Tz where
  tzid : String
  obj : Nat
deriving DecidableEq, Repr

/-- `TimezoneDatabase`, timezonedb.py:40-46: the VTIMEZONE components of its calendar, and the
caches.  `tzcache` is a list of pairs, of which the first for a key counts; TZIDs looked up may be
`None`. -/
structure TzDb where
  calendar : List Tz := []
  tzcache : List (Option String × Option Tz) := []
  std : List (Option String) := []
  notStd : List (Option String) := []
deriving DecidableEq, Repr

namespace TzDb

/-- `tzcache.get(tzid)`: `none` when it is not there. -/
def cached (db : TzDb) (tzid : Option String) : Option (Option Tz) :=
  (db.tzcache.find? fun v => decide (v.1 = tzid)).map (·.2)

/-- `self.calendar.getTimezone(tzid)`, calendar.py:611-617. -/
def inCalendar (calendar : List Tz) (tzid : Option String) : Option Tz :=
  calendar.find? fun tz => decide (some tz.tzid = tzid)

/-- `_getTimezone`, timezonedb.py:171-194.  `file` are the time zones that `cacheTimezone` adds to
the calendar if it is called (none if there is no file; when the data of the file is invalid, those
before the error; exceptions other than `IOError` and `InvalidData` are not modelled). -/
def getTimezone (db : TzDb) (tzid : Option String) (file : List Tz) : Option Tz × TzDb :=
  match db.cached tzid with
  | some tz => (tz, db)
  | none =>
    let calendar := if inCalendar db.calendar tzid = none then db.calendar ++ file else db.calendar
    let tz := inCalendar calendar tzid
    (tz, { calendar := calendar, tzcache := (tzid, tz) :: db.tzcache,
           std := if tz ≠ none ∧ tzid ≠ none then tzid :: db.std else db.std,
           notStd := if tz ≠ none ∧ tzid ≠ none then db.notStd else tzid :: db.notStd })

/-- `addTimezone`, timezonedb.py:128-138; `copy` is the new object. -/
def addTimezone (db : TzDb) (tz : Tz) (copy : Nat) : TzDb :=
  { db with calendar := db.calendar ++ [⟨tz.tzid, copy⟩],
            tzcache := (some tz.tzid, some ⟨tz.tzid, copy⟩) :: db.tzcache }

/-- `_addStandardTimezone`, timezonedb.py:140-151. -/
def addStandard (db : TzDb) (tz : Tz) (copy : Nat) : TzDb :=
  let db := if db.cached (some tz.tzid) = none then db.addTimezone tz copy else db
  { db with std := some tz.tzid :: db.std }

/-- `_isStandardTimezone`, timezonedb.py:153-169. -/
def isStandard (db : TzDb) (tzid : Option String) (file : List Tz) : Bool × TzDb :=
  if tzid ∈ db.std then (true, db)
  else if tzid ∈ db.notStd then (false, db)
  else
    let db := (db.getTimezone tzid file).2
    (decide (tzid ∈ db.std), db)

/-- `mergeTimezone`, timezonedb.py:212-218. -/
def merge (db : TzDb) (tz : Tz) (file : List Tz) (copy : Nat) : TzDb :=
  let v := db.getTimezone (some tz.tzid) file
  if v.1 = none then v.2.addTimezone tz copy else v.2

/-- `mergeTimezones`, timezonedb.py:197-210: `own` tells whether the calendar is the database's own, `file`
are the time zones that the file for a TZID has, and each time zone comes with the object that its copy
would be. -/
def mergeTimezones (db : TzDb) (own : Bool) (file : String → List Tz) (tzs : List (Tz × Nat)) : TzDb :=
  if own then db else tzs.foldl (fun db v => db.merge v.1 (file v.1.tzid) v.2) db

/-- `getTimezoneInCalendar`, timezonedb.py:69-81: the time zone in the new calendar, which has nothing else
but the properties of every new calendar; `copy` is the new object. -/
def getInCalendar (db : TzDb) (tzid : Option String) (file : List Tz) (copy : Nat) :
    Option (List Tz) × TzDb :=
  match db.getTimezone tzid file with
  | (some tz, db) => (some [⟨tz.tzid, copy⟩], db)
  | (none, db) => (none, db)

/-- `clear`, timezonedb.py:51-56. -/
def clear (_ : TzDb) : TzDb := {}

end TzDb
end PyCal
