import Verif.Model.Escape
import Verif.Model.RecurrenceText

/-!
# Types of values

The value type of a property: `PropertyBase.determineValueType`, `setupValueParameter`, `parseText`
(property.py), `Value.createFromType` (value.py) and the tables of iCalendar and vCard
(icalendar/property.py, vcard/property.py).  Then the reading and writing of texts, URIs, lists of texts
and REQUEST-STATUS values.
-/

namespace PyCal
namespace ValueType

/-- `VALUETYPE_...`, value.py:26-50, but for MULTIVALUE and XNAME, which no table has. -/
inductive VType where
  | adr | binary | boolean | calAddress | date | dateTime | duration | float | geo | integer | n | org
  | period | recur | requestStatus | text | time | unknown | uri | utcOffset | vcard
deriving DecidableEq, Repr

/-- The class attributes of a kind of property: `sDefaultValueTypeMap`, `sValueTypeMap`, `sTypeValueMap`,
`sMultiValues`, `sSpecialVariants` and `sAlwaysValueTypes`.  Dictionaries are lists of pairs. -/
structure Tables where
  default : List (String × VType)
  byName : List (String × VType)
  nameOf : List (VType × String)
  multi : List String
  special : List (String × VType)
  always : List String := []

/-- `Property.sDefaultValueTypeMap`, icalendar/property.py:36-126. -/
def icalDefault : List (String × VType) :=
  [("CALSCALE", .text), ("METHOD", .text), ("PRODID", .text), ("VERSION", .text), ("ATTACH", .uri),
   ("CATEGORIES", .text), ("CLASS", .text), ("COMMENT", .text), ("DESCRIPTION", .text),
   ("GEO", .float), ("LOCATION", .text), ("PERCENT-COMPLETE", .integer), ("PRIORITY", .integer),
   ("RESOURCES", .text), ("STATUS", .text), ("SUMMARY", .text), ("COMPLETED", .dateTime),
   ("DTEND", .dateTime), ("DUE", .dateTime), ("DTSTART", .dateTime), ("DURATION", .duration),
   ("FREEBUSY", .period), ("TRANSP", .text), ("TZID", .text), ("TZNAME", .text),
   ("TZOFFSETFROM", .utcOffset), ("TZOFFSETTO", .utcOffset), ("TZURL", .uri),
   ("ATTENDEE", .calAddress), ("CONTACT", .text), ("ORGANIZER", .calAddress),
   ("RECURRENCE-ID", .dateTime), ("RELATED-TO", .text), ("URL", .uri), ("UID", .text),
   ("EXDATE", .dateTime), ("EXRULE", .recur), ("RDATE", .dateTime), ("RRULE", .recur),
   ("ACTION", .text), ("REPEAT", .integer), ("TRIGGER", .duration), ("CREATED", .dateTime),
   ("DTSTAMP", .dateTime), ("LAST-MODIFIED", .dateTime), ("SEQUENCE", .integer),
   ("REQUEST-STATUS", .text), ("ACKNOWLEDGED", .dateTime), ("ACCEPT-RESPONSE", .text),
   ("POLL-COMPLETION", .text), ("POLL-ITEM-ID", .integer), ("POLL-MODE", .text),
   ("POLL-PROPERTIES", .text), ("POLL-WINNER", .integer), ("RESPONSE", .integer),
   ("VOTER", .calAddress), ("X-WR-CALNAME", .text), ("X-WR-CALDESC", .text),
   ("X-WR-ALARMUID", .text), ("X-MULBERRY-SPEAK-TEXT", .text),
   ("X-MULBERRY-LAST-TRIGGER", .dateTime), ("X-MULBERRY-ALARM-STATUS", .text)]

/-- The tables of iCalendar, icalendar/property.py:128-145, 147-166, 168-175, 177-180. -/
def ical : Tables where
  default := icalDefault
  byName :=
    [("BINARY", .binary), ("BOOLEAN", .boolean), ("CAL-ADDRESS", .calAddress), ("DATE", .date),
     ("DATE-TIME", .dateTime), ("DURATION", .duration), ("FLOAT", .float), ("INTEGER", .integer),
     ("PERIOD", .period), ("RECUR", .recur), ("TEXT", .text), ("TIME", .time), ("URI", .uri),
     ("UTC-OFFSET", .utcOffset)]
  nameOf :=
    [(.binary, "BINARY"), (.boolean, "BOOLEAN"), (.calAddress, "CAL-ADDRESS"), (.date, "DATE"),
     (.dateTime, "DATE-TIME"), (.duration, "DURATION"), (.float, "FLOAT"), (.geo, "FLOAT"),
     (.integer, "INTEGER"), (.period, "PERIOD"), (.recur, "RECUR"), (.text, "TEXT"),
     (.requestStatus, "TEXT"), (.time, "TIME"), (.uri, "URI"), (.utcOffset, "UTC-OFFSET")]
  multi := ["CATEGORIES", "RESOURCES", "FREEBUSY", "EXDATE", "RDATE", "POLL-PROPERTIES"]
  special := [("GEO", .geo), ("REQUEST-STATUS", .requestStatus)]

/-- `Property.sDefaultValueTypeMap`, vcard/property.py:40-90. -/
def vcardDefault : List (String × VType) :=
  [("SOURCE", .uri), ("NAME", .text), ("PROFILE", .text), ("FN", .text), ("N", .text),
   ("NICKNAME", .text), ("PHOTO", .binary), ("BDAY", .date), ("ADR", .text), ("LABEL", .text),
   ("TEL", .text), ("EMAIL", .text), ("MAILER", .text), ("TZ", .utcOffset), ("GEO", .float),
   ("TITLE", .text), ("ROLE", .text), ("LOGO", .binary), ("AGENT", .vcard), ("ORG", .text),
   ("CATEGORIES", .text), ("NOTE", .text), ("PRODID", .text), ("REV", .dateTime),
   ("SORT-STRING", .text), ("SOUND", .binary), ("UID", .text), ("URL", .uri), ("VERSION", .text),
   ("CLASS", .text), ("KEY", .binary)]

/-- The tables of vCard, vcard/property.py:92-104, 106-122, 124-127, 129-134. -/
def vcard : Tables where
  default := vcardDefault
  byName :=
    [("BINARY", .binary), ("BOOLEAN", .boolean), ("DATE", .date), ("DATE-TIME", .dateTime),
     ("FLOAT", .float), ("INTEGER", .integer), ("TEXT", .text), ("TIME", .time), ("URI", .uri),
     ("UTCOFFSET", .utcOffset), ("VCARD", .vcard)]
  nameOf :=
    [(.adr, "TEXT"), (.binary, "BINARY"), (.boolean, "BOOLEAN"), (.date, "DATE"),
     (.dateTime, "DATE-TIME"), (.float, "FLOAT"), (.geo, "FLOAT"), (.integer, "INTEGER"),
     (.n, "TEXT"), (.org, "TEXT"), (.text, "TEXT"), (.time, "TIME"), (.uri, "URI"),
     (.utcOffset, "UTCOFFSET"), (.vcard, "VCARD")]
  multi := ["NICKNAME", "CATEGORIES"]
  special := [("ADR", .adr), ("GEO", .geo), ("N", .n), ("ORG", .org)]

/-- `registerDefaultValue`, property.py:68-83: a program registers the default type of a property. -/
def Tables.register (S : Tables) (name : String) (t : VType) (always : Bool) : Tables :=
  { S with
    default := if name ∈ S.default.map (·.1) then S.default else S.default ++ [(name, t)]
    always := if always then name :: S.always else S.always }

/-- `self.sDefaultValueTypeMap.get(self.mName.upper())`; `name` is in upper case. -/
def Tables.defaultOf (S : Tables) (name : String) : Option VType := S.default.lookup name

/-- The type asked for by a VALUE parameter, property.py:509-511, 557-558.  `value` is its first value, if
there is such a parameter; the look-up distinguishes case. -/
def Tables.asked (S : Tables) (value : Option String) (d : VType) : VType :=
  match value with
  | some v => (S.byName.lookup v).getD d
  | none => d

/-- `determineValueType`, property.py:504-519. -/
def determine (S : Tables) (name : String) (value : Option String) : VType :=
  let d := (S.defaultOf name).getD .unknown
  let t := S.asked value d
  match S.special.lookup name with
  | some s => if t = d then s else t
  | none => t

/-- The types for which no class is registered (`registerType`, value.py:67-71) become an `UnknownValue`,
value.py:73-80. -/
def registered (t : VType) : Bool := decide (t ∉ [.boolean, .time, .vcard])

/-- `getType()` of the value of type `t` made from a text; `isDate`: whether the text of a DATE or
DATE-TIME is a date (datetimevalue.py:28-29). -/
def madeType (isDate : Bool) (t : VType) : VType :=
  if registered t then
    if t = .date ∨ t = .dateTime then (if isDate then .date else .dateTime) else t
  else .unknown

/-- `getType()` of the value that a property of type `t` gets, property.py:260-266 (`MultiValue.getType`,
multivalue.py:35-36). -/
def valueType (S : Tables) (name : String) (isDate : Bool) (t : VType) : VType :=
  if name ∈ S.multi then t else madeType isDate t

/-- `getType()` of the value that `parseText` makes, property.py:257-269. -/
def readType (S : Tables) (name : String) (value : Option String) (isDate : Bool) : VType :=
  valueType S name isDate (determine S name value)

/-- `setupValueParameter`, property.py:575-594: the VALUE parameter that is written with a value of type
`t`. -/
def writtenValue (S : Tables) (name : String) (t : VType) : Option String :=
  let d := S.defaultOf name
  let actual := if (S.special.lookup name).isSome then d else some t
  if d = none ∨ d ≠ actual ∨ name ∈ S.always then
    match actual with
    | none => none
    | some a =>
      match S.nameOf.lookup a with
      | none => none
      | some v => if d ≠ none ∨ a ≠ .text then some v else none
  else none

/-! ### Texts -/

/-- `self.sDefaultValueTypeMap.get(self.mName.upper(), ...)` in the constructor of a property given a
string: UNKNOWN in iCalendar (icalendar/property.py:196-197), TEXT in vCard (vcard/property.py:156-157).
`ifNone` is that last argument. -/
def constructType (S : Tables) (ifNone : VType) (name : String) : VType :=
  (S.defaultOf name).getD ifNone

/-- The type that `setValue` gives a property, property.py:552-573. -/
def setType (S : Tables) (name : String) (value : Option String) : VType :=
  S.asked value ((S.defaultOf name).getD .text)

/-- `generate` of a `TextValue` (textvalue.py:34-39) and of an `UnknownValue` (plaintextvalue.py:35-40);
`none` for the other types, which are not texts or are treated elsewhere. -/
def writeString (t : VType) (s : List Char) : Option (List Char) :=
  match t with
  | .text => some (escapeText s)
  | .unknown => some s
  | _ => none

/-- `parse` of a `TextValue` (textvalue.py:29-31) and of an `UnknownValue` (plaintextvalue.py:30-32). -/
def readString (colon other : PMode) (t : VType) (data : List Char) : Option (List Char) :=
  match t with
  | .text => decodeText colon other data
  | .unknown => some data
  | _ => none

/-- The string that is read from what is written for the string `s` of type `t` in a property. -/
def rereadString (colon other : PMode) (S : Tables) (name : String) (t : VType) (s : List Char) :
    Option (List Char) :=
  (writeString t s).bind (readString colon other (readType S name (writtenValue S name t) false))

/-! ### URIs -/

/-- `s.replace("\n", "\\n")`. -/
def escapeBreaks : List Char → List Char
  | [] => []
  | c :: s => if c = '\n' then '\\' :: 'n' :: escapeBreaks s else c :: escapeBreaks s

/-- `URIValue.generate`, urivalue.py:40-52. -/
def writeURI (s : List Char) : List Char := escapeBreaks s

/-- `URIValue.parse`, urivalue.py:30-37; `fix`: `BACKSLASH_IN_URI_VALUE == PARSER_FIX`. -/
def readURI (fix : Bool) (colon other : PMode) (data : List Char) : Option (List Char) :=
  if fix then decodeText colon other data else some data

/-! ### Lists of texts -/

/-- `MultiValue.generate`, multivalue.py:70-80, of a list of `TextValue`s. -/
def writeTexts (vs : List (List Char)) : List Char := joinSep ',' (vs.map escapeText)

/-- `MultiValue.parse`, multivalue.py:58-68, of texts into a value that holds `old`. -/
def readTexts (colon other : PMode) (old : List (List Char)) (data : List Char) :
    Option (List (List Char)) :=
  ((splitOn ',' data).mapM (decodeText colon other)).map (old ++ ·)

/-! ### REQUEST-STATUS -/

/-- `RequestStatusValue.mValue`: the code, the description and, if there is a third element, the rest. -/
structure ReqStatus where
  code : List Char
  desc : List Char
  rest : Option (List Char)
deriving DecidableEq, Repr

/-- `RequestStatusValue.generate`, requeststatusvalue.py:77-78: an empty third element is left out. -/
def writeStatus (r : ReqStatus) : List Char :=
  generateTextList ';' (match r.rest with
    | some (c :: x) => [r.code, r.desc, c :: x]
    | _ => [r.code, r.desc])

/-- `result[0].split(";", 1)`, requeststatusvalue.py:49-53. -/
def splitFirst (s : List Char) : List Char × List Char :=
  if ';' ∈ s then (s.takeWhile (· ≠ ';'), (s.dropWhile (· ≠ ';')).drop 1) else (s, [])

/-- The components, requeststatusvalue.py:46-67.  `mode` is `INVALID_REQUEST_STATUS_VALUE`. -/
def statusParts (mode : PMode) (result : List (List Char)) :
    Option (List Char × List Char × List Char) :=
  match result with
  | [] => none
  | [a] => if mode = .raise then none else some ((splitFirst a).1, (splitFirst a).2, [])
  | [a, b] => some (a, b, [])
  | [a, b, c] => some (a, b, c)
  | a :: b :: c :: _ => if mode = .raise then none else some (a, b, c)

/-- `RequestStatusValue.parse`, requeststatusvalue.py:44-74: the last test raises in the mode RAISE
whether or not there is a backslash. -/
def readStatus (colon other mode : PMode) (data : List Char) : Option ReqStatus :=
  match parseTextList colon other ';' data with
  | none => none
  | some result =>
    match statusParts mode result with
    | none => none
    | some (code, desc, rest) =>
      let fixed := '\\' ∈ code ∧ (mode = .ignore ∨ mode = .fix)
      if ¬ fixed ∧ mode = .raise then none
      else some
        { code := if fixed then code.filter (· ≠ '\\') else code
          desc := desc
          rest := if rest = [] then none else some rest }

end ValueType
end PyCal
