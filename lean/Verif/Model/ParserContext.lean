import Verif.Model.Escape
import Verif.Model.Duration
import Verif.Model.DateTimeText
import Verif.Model.ValueType
import Verif.Model.PropertyText

/-!
# The settings of the parser and the program that checks a file: parser.py, validator.py

The settings are attributes of a class and so shared by everything that reads data; here they are a
record that each reader gets.  What a reader does with its setting is modelled where the reader is.
-/

namespace PyCal

/-- The attributes of `ParserContext`, parser.py:31-66; `stray` is the attribute `INVALID_REQUEST_STATUS`,
which only `allRaise` assigns (parser.py:84) and nothing reads. -/
structure ParserContext where
  colonEscape : PMode
  escapes : PMode
  blankLines : PMode
  noValues : PMode
  base64 : PMode
  dateTimeValue : PMode
  leadingSpace : PMode
  duration : PMode
  adrN : PMode
  requestStatus : PMode
  uri : PMode
  geo : PMode
  stray : Option PMode
deriving DecidableEq, Repr

namespace ParserContext

/-- The settings when the module is loaded, parser.py:31-66. -/
def defaults : ParserContext where
  colonEscape := .fix
  escapes := .raise
  blankLines := .fix
  noValues := .allow
  base64 := .fix
  dateTimeValue := .fix
  leadingSpace := .allow
  duration := .fix
  adrN := .fix
  requestStatus := .fix
  uri := .fix
  geo := .fix
  stray := none

/-- `ParserContext.allRaise`, parser.py:68-84. -/
def allRaise (c : ParserContext) : ParserContext :=
  { c with
    colonEscape := .raise
    escapes := .raise
    blankLines := .raise
    noValues := .raise
    base64 := .raise
    duration := .raise
    adrN := .raise
    requestStatus := .raise
    uri := .raise
    geo := .raise
    stray := some .raise }

/-- `decodeTextValue`, utils.py:134-192, with these settings (utils.py:168-178). -/
def text (c : ParserContext) (data : List Char) : Option (List Char) :=
  decodeText c.colonEscape c.escapes data

/-- `Duration.parseText`, duration.py:117-121, with these settings (duration.py:154, 180). -/
def durationText (c : ParserContext) (data : List Char) : Option Duration :=
  Duration.parseText (decide (c.duration = .raise)) data

/-- `DateTime.parse`, datetime.py:959-1001, into the object `self` with these settings (datetime.py:895). -/
def dateText (c : ParserContext) (self : DateTime) (data : List Char) (fullISO : Bool) : Option DateTime :=
  DateTime.parse (decide (c.leadingSpace = .raise)) self data fullISO

/-- `parseDoubleNestedList`, utils.py:297-334, with these settings (utils.py:329-332). -/
def nested (c : ParserContext) (maxsize : Nat) (data : List Char) : Option (List Comp) :=
  parseNested c.colonEscape c.escapes c.adrN maxsize data

/-- `URIValue.parse`, urivalue.py:30-37, with these settings. -/
def uriText (c : ParserContext) (data : List Char) : Option (List Char) :=
  ValueType.readURI (decide (c.uri = .fix)) c.colonEscape c.escapes data

/-- `RequestStatusValue.parse`, requeststatusvalue.py:44-74, with these settings. -/
def status (c : ParserContext) (data : List Char) : Option ValueType.ReqStatus :=
  ValueType.readStatus c.colonEscape c.escapes c.requestStatus data

/-- `Property.parse` of a card up to the creation of the value, vcard/property.py:193-268, with these
settings (vcard/property.py:229-239). -/
def cardLine (c : ParserContext) (data : List Char) :=
  PropText.parseText true { noValues := c.noValues, base64 := c.base64 } data

end ParserContext

/-! ### The program that checks a file -/

namespace Validator

/-- The characters looked for, validator.py:59-62: all below 0x20 but HTAB, LF and CR. -/
def isControl (c : Char) : Bool :=
  c.toNat ∈ [0, 1, 2, 3, 4, 5, 6, 7, 8, 0x0B, 0x0C, 0x0E, 0x0F, 0x10, 0x11, 0x12, 0x13, 0x14, 0x15, 0x16, 0x17,
    0x18, 0x19, 0x1A, 0x1B, 0x1C, 0x1D, 0x1E, 0x1F]

/-- What is printed, one item for each call of `print`, validator.py:36-62. -/
inductive Line (E P : Type)
  | failed (what : String) (error : E)
  | notFound
  | problems (l : List P)
  | noProblems
  | control (code position : Nat)
deriving DecidableEq, Repr

/-- The loop of the last check, validator.py:60-62, from position `ctr` on. -/
def controlLoop {E P : Type} (ctr : Nat) : List Char → List (Line E P)
  | [] => []
  | i :: s => (if isControl i then [.control i.toNat ctr] else []) ++ controlLoop (ctr + 1) s

/-- The last check, validator.py:57-62: the loop runs only if `translate` takes some character away. -/
def controlCheck {E P : Type} (data : List Char) : List (Line E P) :=
  if (data.filter (fun c => !isControl c)).length ≠ data.length then controlLoop 0 data else []

/-- `data.find(pat) != -1`. -/
def finds (pat : List Char) : List Char → Bool
  | [] => pat == []
  | c :: s => pat.isPrefixOf (c :: s) || finds pat s

/-- The object that is read, or what is printed before `sys.exit(1)`, validator.py:36-51.  `parseCal` and
`parseCard` are `Calendar.parseText` and `Card.parseText` with the settings that `allRaise` leaves
(validator.py:34); `.error` is an `ErrorBase`, exceptions of other kinds are left out. -/
def parsed {E P Obj : Type} (ctx : ParserContext) (parseCal parseCard : ParserContext → List Char → Except E Obj)
    (data : List Char) : Except (Line E P) Obj :=
  if finds "BEGIN:VCALENDAR".toList data then
    match parseCal ctx.allRaise data with
    | .ok o => .ok o
    | .error e => .error (.failed "iCalendar" e)
  else if finds "BEGIN:VCARD".toList data then
    match parseCard ctx.allRaise data with
    | .ok o => .ok o
    | .error e => .error (.failed "vCard" e)
  else .error .notFound

/-- `validate`, validator.py:26-62: what is printed and whether the program is left by `sys.exit(1)`.
`check` is the second component of `cal.validate(doFix=False, doRaise=False)`.  `data` is the contents of
the file, one `Char` for each byte, as both `str` and `enumerate` see them. -/
def validate {E P Obj : Type} (ctx : ParserContext) (parseCal parseCard : ParserContext → List Char → Except E Obj)
    (check : Obj → List P) (data : List Char) : List (Line E P) × Bool :=
  match parsed ctx parseCal parseCard data with
  | .error l => ([l], true)
  | .ok cal =>
    ((match check cal with
      | [] => .noProblems
      | l => .problems l) :: controlCheck data, false)

end Validator
end PyCal
