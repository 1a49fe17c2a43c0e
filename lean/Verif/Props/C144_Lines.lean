import Verif.Spec.TypedLine
import Verif.Props.C144_More
import Verif.Props.C145_Version

/-!
# C144: all lines of the calendar
-/

namespace PyCal
open DateTime Spec Spec.EventText Spec.CalendarText EventRead CalendarRead Rewrite

namespace L144
open L132 L137 ValueType PropText

section
variable {s : Settings} {w : Writer}

/-- What is written for a value can be read, for the types that are left open. -/
def Closed (e : Env) (w : Writer) : Prop := ∀ t d, e.accepts t (some d) = true → e.accepts t (some (w t (some d))) = true

/-- What is written for a property with an address is what was read. -/
theorem address_again {e : Env} (hT : Program ical e.tables) {l : ContentLine} (ha : l.Allowed false)
    (hr : ∀ p ∈ l.params, ∀ v ∈ p.values, v.Readable) (hf : LineFits l) {key : String} (hkk : key ∈ ["ATTENDEE", "ORGANIZER"])
    (hn : upper l.name = key.toList) (hp : SaysType l "CAL-ADDRESS") : Again e w l (· = .text l.value) := by
  refine simple_again hT ha hr hf (key := key) (nm := "CAL-ADDRESS") (ty := .calAddress)
    (by clear hn; revert key; decide +kernel) hn hp (f := fun s => some (.text s))
    (fun ps s h => ?_) (v := .text l.value) rfl (fun tz => rfl) (v' := .text l.value) rfl rfl rfl (.inl rfl)
  have hkey : String.ofList (upper l.name) = key := by rw [hn, String.ofList_toList]
  have hm : key ∉ ical.multi := by clear hn hkey; revert key; decide +kernel
  unfold createValue
  dsimp only
  rw [h, (program_keeps hT).2.2.1, hkey, if_neg hm, if_neg (by simp), if_neg (by simp), if_neg (by simp), if_neg (by simp),
    if_pos (by simp)]

theorem uri_again {e : Env} (hT : Program ical e.tables) {l : ContentLine} (ha : l.Allowed false)
    (hr : ∀ p ∈ l.params, ∀ v ∈ p.values, v.Readable) (hf : LineFits l) {key : String} (hkk : key ∈ ["ATTACH", "TZURL", "URL"])
    (hn : upper l.name = key.toList) (hp : SaysType l "URI") (h1 : '\\' ∉ l.value) (h2 : '\n' ∉ l.value) :
    Again e w l (· = .text l.value) := by
  have hw : writeURI l.value = l.value := by
    have := (C67_allow_partial .fix .fix l.value).mpr h2
    simpa [readURI] using this
  have hread : readURI e.uriFix e.escColon e.escOther l.value = some l.value := by
    have h1 := (C67_fix_partial e.escColon e.escOther l.value).mpr h1
    rw [hw] at h1
    cases e.uriFix with
    | true => exact h1
    | false => rfl
  refine simple_again hT ha hr hf (key := key) (nm := "URI") (ty := .uri)
    (by clear hn; revert key; decide +kernel) hn hp (f := fun s => (readURI e.uriFix e.escColon e.escOther s).map .text)
    (fun ps s h => ?_) (v := .text l.value) (by rw [hread]; rfl) (fun tz => hw) (v' := .text l.value) (by rw [hread]; rfl) rfl rfl (.inl rfl)
  have hkey : String.ofList (upper l.name) = key := by rw [hn, String.ofList_toList]
  have hm : key ∉ ical.multi := by clear hn hkey; revert key; decide +kernel
  unfold createValue readURI
  dsimp only
  rw [h, (program_keeps hT).2.2.1, hkey, if_neg hm, if_neg (by simp), if_neg (by simp), if_neg (by simp)]
  cases e.uriFix <;> simp

theorem left_again {e : Env} (hT : Program ical e.tables) (hw : Closed e w) {l : ContentLine} (ha : l.Allowed false)
    (hr : ∀ p ∈ l.params, ∀ v ∈ p.values, v.Readable) (hf : LineFits l) {key nm : String} {ty : VType} (hkk : (key, nm, ty) ∈ openNames)
    (hn : upper l.name = key.toList) (hp : SaysType l nm) (hok : e.accepts ty (some l.value) = true) : Again e w l (· = .other) := by
  have hall : ∀ a ∈ openNames, a ∈ simpleKeys ∧ a.1 ∉ ical.multi ∧ a.2.2 ≠ .date ∧ a.2.2 ≠ .dateTime ∧ a.2.2 ≠ .recur ∧ a.2.2 ≠ .duration ∧
      a.2.2 ≠ .text ∧ a.2.2 ≠ .uri ∧ a.2.2 ≠ .unknown ∧ a.2.2 ≠ .calAddress ∧ a.2.2 ≠ .binary ∧ a.2.2 ≠ .integer ∧ a.2.2 ≠ .utcOffset := by decide +kernel
  obtain ⟨k0, k1, k2, k3, k4, k5, k6, k7, k8, k9, k10, k11, k12⟩ := hall _ hkk
  dsimp only at k1 k2 k3 k4 k5 k6 k7 k8 k9 k10 k11 k12
  refine simple_again hT ha hr hf (key := key) (nm := nm) (ty := ty) k0 hn hp
    (f := fun s => if e.accepts ty (some s) then some .other else none)
    (fun ps s h => ?_) (v := .other) (if_pos hok) (fun tz => rfl) (v' := .other) (if_pos (hw _ _ hok)) rfl rfl (.inl rfl)
  have hkey : String.ofList (upper l.name) = key := by rw [hn, String.ofList_toList]
  unfold createValue
  dsimp only
  rw [h, (program_keeps hT).2.2.1, hkey, if_neg k1, if_neg (by simp [k2, k3]), if_neg k4, if_neg k5, if_neg (by simp [k6, k7]),
    if_neg (by simp [k7, k8, k9, k10]), if_neg k11, if_neg k12]

/-- A line that may be in the calendar. -/
structure GoodLine (e : Env) (l : ContentLine) : Prop where
  allowed : l.Allowed false
  readable : ∀ p ∈ l.params, ∀ v ∈ p.values, v.Readable
  fits : LineFits l
  plain : TypedLine (fun t s => e.accepts t (some s) = true) (fun n => e.tables.defaultOf (String.ofList n) = none) l

/-- A line with a value of its type is written and can be read again. -/
theorem plain_again {e : Env} (hT : Program ical e.tables) (hw : Closed e w) {l : ContentLine} (h : GoodLine e l) :
    ∃ R, Again e w l R := by
  obtain ⟨ha, hr, hf, hp⟩ := h
  cases hp with
  | text hn ht =>
    obtain ⟨key, hk, hkn⟩ := List.mem_map.mp hn
    exact ⟨_, text_again hT ha hr hf (key := key) hk hkn.symm ht⟩
  | date hn ht =>
    obtain ⟨key, hk, hkn⟩ := List.mem_map.mp hn
    have : ∀ k ∈ (["DTSTART", "DTEND", "DUE", "COMPLETED", "CREATED", "DTSTAMP", "LAST-MODIFIED", "ACKNOWLEDGED",
        "X-MULBERRY-LAST-TRIGGER"] : List String), k ∈ singleKeys := by
      decide +kernel
    exact ⟨_, date_again hT ha hr hf hkn.symm (this key hk) ht⟩
  | length hn ht =>
    rcases hn with hn | hn
    · exact ⟨_, length_again hT ha hr hf (key := "DURATION") (by simp) hn ht⟩
    · exact ⟨_, length_again hT ha hr hf (key := "TRIGGER") (by simp) hn ht⟩
  | rule ex hn hp ht => exact ⟨_, rule_again hT ha hr hf hn hp ht⟩
  | dates ex hn hp ht hd => exact ⟨_, dates_again hT ha hr hf hn hp ht fun t ht => (hd t ht).2⟩
  | periods hn hp ht hplus => exact ⟨_, periods_again hT ha hr hf hn hp ht hplus⟩
  | address hn hp =>
    rcases hn with hn | hn
    · exact ⟨_, address_again hT ha hr hf (key := "ATTENDEE") (by simp) hn hp⟩
    · exact ⟨_, address_again hT ha hr hf (key := "ORGANIZER") (by simp) hn hp⟩
  | uri hn hp h1 h2 =>
    rcases hn with hn | hn | hn
    · exact ⟨_, uri_again hT ha hr hf (key := "ATTACH") (by simp) hn hp h1 h2⟩
    · exact ⟨_, uri_again hT ha hr hf (key := "TZURL") (by simp) hn hp h1 h2⟩
    · exact ⟨_, uri_again hT ha hr hf (key := "URL") (by simp) hn hp h1 h2⟩
  | left hk hn hp hok => exact ⟨_, left_again hT hw ha hr hf hk hn hp hok⟩
  | number hn hp ht =>
    obtain ⟨key, hk, hkn⟩ := List.mem_map.mp hn
    exact ⟨_, number_again hT ha hr hf (key := key) hk hkn.symm hp ht⟩
  | offset hn ht =>
    rcases hn with hn | hn
    · exact ⟨_, offset_again hT ha hr hf (key := "TZOFFSETFROM") (by simp) hn ht⟩
    · exact ⟨_, offset_again hT ha hr hf (key := "TZOFFSETTO") (by simp) hn ht⟩
  | «at» hn h1 h2 h3 h4 => exact ⟨_, at_again hT ha hr hf hn h1 h2 h3 h4⟩
  | texts hn hp ht =>
    rcases hn with hn | hn
    · exact ⟨_, texts_again hT ha hr hf (key := "CATEGORIES") (by simp) hn hp ht⟩
    · exact ⟨_, texts_again hT ha hr hf (key := "RESOURCES") (by simp) hn hp ht⟩
  | extra _ hn hp => exact ⟨_, extra_again hT ha hr hf hn hp⟩

theorem plain_head {e : Env} {l : ContentLine} (h : GoodLine e l) :
    (upper l.name).take 2 ≠ "BE".toList ∧ (upper l.name).take 2 ≠ "EN".toList ∧ 2 ≤ (upper l.name).length := by
  have h1 : ∀ n ∈ textNames ++ dateNames ++ numberNames, n.take 2 ≠ "BE".toList ∧ n.take 2 ≠ "EN".toList ∧ 2 ≤ n.length := by decide +kernel
  have h2 : ∀ a ∈ openNames, a.1.toList.take 2 ≠ "BE".toList ∧ a.1.toList.take 2 ≠ "EN".toList ∧ 2 ≤ a.1.toList.length := by decide +kernel
  cases h.plain with
  | text hn _ => exact h1 _ (by simp [hn])
  | date hn _ => exact h1 _ (by simp [hn])
  | number hn _ _ => exact h1 _ (by simp [hn])
  | offset hn _ => rcases hn with hn | hn <;> rw [hn] <;> decide +kernel
  | «at» hn _ _ _ _ => rw [hn]; decide +kernel
  | length hn _ => rcases hn with hn | hn <;> rw [hn] <;> decide +kernel
  | rule ex hn _ _ => rw [hn]; cases ex <;> decide +kernel
  | dates ex hn _ _ _ => rw [hn]; cases ex <;> decide +kernel
  | periods hn _ _ _ => rw [hn]; decide +kernel
  | address hn _ => rcases hn with hn | hn <;> rw [hn] <;> decide +kernel
  | uri hn _ _ _ => rcases hn with hn | hn | hn <;> rw [hn] <;> decide +kernel
  | left hk hn _ _ => rw [hn]; exact h2 _ hk
  | texts hn _ _ => rcases hn with hn | hn <;> rw [hn] <;> decide +kernel
  | extra hn _ _ =>
    refine ⟨by rw [hn]; decide, by rw [hn]; decide, ?_⟩
    have := congrArg List.length hn
    rw [List.length_take] at this
    change min 2 _ = 2 at this
    omega

/-- The property with this line. -/
def GoodProp (e : Env) (p : Cont.CProp) : Prop := ∃ l, p.text = l.text ∧ p.name = l.name ∧ GoodLine e l

theorem prop_readBack (hT : Program ical s.tables) (hw : Closed s.toEnv w) {p : Cont.CProp} (h : GoodProp s.toEnv p) :
    ReadBack (container s) (reline s.toEnv w p) := by
  obtain ⟨l, h1, h2, hl⟩ := h
  obtain ⟨R, -, text, ps, v, -, a, b, c, -⟩ := plain_again hT hw hl
  exact line_readBack (plain_head hl) h1 h2 a b c

theorem version_valid (hT : Program ical s.tables) {p : Cont.CProp} (h : GoodProp s.toEnv p)
    (hv : CalendarRead.valid s.toEnv p = true) : CalendarRead.valid s.toEnv (reline s.toEnv w p) = true := by
  obtain ⟨l, h1, h2, hl⟩ := h
  have hmain : ∀ key : String, key ∈ ["VERSION", "CALSCALE"] → p.name = key.toList →
      ∃ v q q', readLine s.toEnv p.text = some q ∧ q.value = .text v ∧
        readLine s.toEnv (reline s.toEnv w p).text = some q' ∧ q'.value = .text v := by
    intro key hk hn
    rw [h2] at hn
    have hup : ∀ key : String, key ∈ ["VERSION", "CALSCALE"] → upper key.toList = key.toList ∧ key ∈ textKeys ∧
        (key.toList ∉ dateNames ∧ key.toList ∉ numberNames) ∧ key.toList ∉ (["DURATION", "TRIGGER", "ATTENDEE", "ORGANIZER", "ATTACH", "TZURL", "URL", "RRULE", "EXRULE",
          "RDATE", "EXDATE", "FREEBUSY", "CATEGORIES", "RESOURCES", "TZOFFSETFROM", "TZOFFSETTO"] : List String).map String.toList ∧ (∀ a ∈ openNames, key.toList ≠ a.1.toList) ∧
          key.toList.take 2 ≠ "X-".toList := by decide +kernel
    obtain ⟨k1, k2, k3, k4, k5, k6⟩ := hup key hk
    have hu : upper l.name = key.toList := by rw [hn, k1]
    have hno : ∀ k : String, k ∈ (["DURATION", "TRIGGER", "ATTENDEE", "ORGANIZER", "ATTACH", "TZURL", "URL", "RRULE", "EXRULE",
          "RDATE", "EXDATE", "FREEBUSY", "CATEGORIES", "RESOURCES", "TZOFFSETFROM", "TZOFFSETTO"] : List String) → upper l.name ≠ k.toList := by
      intro k hk h
      exact k4 (List.mem_map.mpr ⟨k, hk, by rw [← h, hu]⟩)
    cases hl.plain with
    | @text v _ ht =>
      obtain ⟨-, text, ps, v', -, a, -, c, -, d, -⟩ := text_again (w := w) hT hl.allowed hl.readable hl.fits k2 hu ht
      subst d
      refine ⟨v, ⟨l.name, l.params.map ShownParam.meaning, .text v⟩, ⟨l.name, ps, .text v⟩, ?_, ?_, ?_, ?_⟩
      · rw [h1]; exact L145.text_any hT hk hl.allowed hl.readable hn ht
      · rfl
      · unfold reline
        rw [h1, a]; exact c
      · rfl
    | date h _ => rw [hu] at h; exact absurd h k3.1
    | number h _ _ => rw [hu] at h; exact absurd h k3.2
    | offset h _ => rcases h with h | h <;> exact absurd h (hno _ (by simp))
    | «at» h _ _ _ _ => exact absurd h (hno _ (by simp))
    | length h _ => rcases h with h | h <;> exact absurd h (hno _ (by simp))
    | rule ex h _ _ => cases ex <;> exact absurd h (hno _ (by simp))
    | dates ex h _ _ _ => cases ex <;> exact absurd h (hno _ (by simp))
    | periods h _ _ _ => exact absurd h (hno _ (by simp))
    | address h _ => rcases h with h | h <;> exact absurd h (hno _ (by simp))
    | uri h _ _ _ => rcases h with h | h | h <;> exact absurd h (hno _ (by simp))
    | left h hn' _ _ => exact absurd (hu.symm.trans hn') (k5 _ h)
    | texts h _ _ => rcases h with h | h <;> exact absurd h (hno _ (by simp))
    | extra h _ _ => rw [hu] at h; exact absurd h k6
  unfold CalendarRead.valid at hv ⊢
  have hname : (reline s.toEnv w p).name = p.name := rfl
  dsimp only at hv ⊢
  rw [hname]
  by_cases hn : p.name = "VERSION".toList
  · obtain ⟨v, ⟨_, _, _⟩, ⟨_, _, _⟩, a, rfl, c, rfl⟩ := hmain "VERSION" (by simp) hn
    rw [if_pos hn, a] at hv
    rw [if_pos hn, c]
    exact hv
  · rw [if_neg hn] at hv ⊢
    by_cases hn : p.name = "CALSCALE".toList
    · obtain ⟨v, ⟨_, _, _⟩, ⟨_, _, _⟩, a, rfl, c, rfl⟩ := hmain "CALSCALE" (by simp) hn
      rw [if_pos hn, a] at hv
      rw [if_pos hn, c]
      exact hv
    · rw [if_neg hn]

/-- A component all of whose lines may be in the calendar; no component of which there may be instances has a RECURRENCE-ID. -/
inductive GoodComp (e : Env) : Cont.Component → Prop
  | mk {t ps cs} (hp : ∀ p ∈ ps, GoodProp e p) (hk : isRecur t = true → ∀ p ∈ ps, p.key ≠ "RECURRENCE-ID".toList)
      (hs : ∀ c ∈ cs, GoodComp e c) : GoodComp e (.mk t ps cs)

theorem good_kept (hT : Program ical s.tables) (hw : Closed s.toEnv w) {c : Cont.Component} (h : GoodComp s.toEnv c) : Kept s w c := by
  induction h with
  | mk hp hk _ ih => exact .mk (fun p h => prop_readBack hT hw (hp p h)) hk ih

/-- An event all of whose lines may be in the calendar, and what it says. -/
structure GoodEvent (e : Env) (c : Cont.Component) (d : EventDesc) : Prop where
  type : c.type = "VEVENT".toList
  lines : ∃ ls : List ContentLine, c.props.map (·.text) = ls.map ContentLine.text ∧ (∀ l ∈ ls, l.Allowed false) ∧
    (∀ l ∈ ls, ∀ p ∈ l.params, ∀ v ∈ p.values, v.Readable) ∧ Describes ls d ∧ ∀ l ∈ ls, LineFits l
  props : ∀ p ∈ c.props, p.key ∉ known → GoodProp e p
  subs : ∀ b ∈ c.subs, GoodComp e b

theorem good_event (hT : Program ical s.tables) (hw : Closed s.toEnv w) {c : Cont.Component} {d : EventDesc}
    (h : GoodEvent s.toEnv c d) : EventKept s w c d := by
  obtain ⟨ls, a, b, f, g, k⟩ := h.lines
  exact ⟨h.type, ⟨ls, a, b, f, g, fun l hl _ => k l hl⟩, fun p hp hk => prop_readBack hT hw (h.props p hp hk),
    fun b hb => good_kept hT hw (h.subs b hb)⟩

end

end L144
open L144

/-- C144 (partial), all lines: as in `C144_instances_partial`, with what has to be said of the other lines put in terms of the text: their
values are of the types that RFC 5545 gives to the properties.

Needed: components that compare equal have the same type (see C41); positions (GEO) and request states that are written can
be read (see C68, C92).  Missing: as in `C144_instances_partial`; commas in lists of texts (`C66_fails`); properties that
RFC 5545 does not name, with a VALUE (`C148_fails_extra`). -/
theorem C144_lines_partial (s : Settings) (hT : Program ValueType.ical s.tables)
    (hfin : ∀ c, isRecur c.type = false → s.finishes c = true) (w : Writer) (hw : Closed s.toEnv w) (order : Cont.Order)
    (heq : ∀ a b, order.eq a b = true → a.type = b.type) (b1 b2 body : List (List Char)) (ps : List Cont.CProp)
    (ss : List Cont.Component) (h1 : Spec.Blank b1) (h2 : Spec.Blank b2) (hb : s.blankRaise = false ∨ b1 = [] ∧ b2 = [])
    (h : Spec.Body (container s) true "VCALENDAR".toList body ps ss) (hv : ∃ p ∈ ps, p.key = "VERSION".toList)
    (hps : ∀ p ∈ ps, GoodProp s.toEnv p) (cal : List EventDesc)
    (hev : List.Forall₂ (GoodEvent s.toEnv) (ss.filter fun d => decide (PropText.upper d.type = "VEVENT".toList)) cal)
    (hother : ∀ d ∈ ss, PropText.upper d.type ≠ "VEVENT".toList → GoodComp s.toEnv d ∧ ∀ p ∈ d.props, p.key ≠ "RECURRENCE-ID".toList)
    (hzone : ∀ d ∈ ss, PropText.upper d.type = "VTIMEZONE".toList → d.type = "VTIMEZONE".toList) (env : TzEnv)
    (range : Period) (hf : ∀ d ∈ cal, EventFits env range cal d) (o : SetOrder) (top : Bool) :
    ∃ c lines c', read s (b1 ++ "BEGIN:VCALENDAR".toList :: (body ++ "END:VCALENDAR".toList :: b2)) = .ok (some c) ∧
      written s.toEnv w order c = some lines ∧ read s lines = .ok (some c') ∧
      ∃ n, ∀ fuel ≥ n, ∃ l l', getVEvents env o fuel s.toEnv c range top = some (.instances l) ∧
        getVEvents env o fuel s.toEnv c' range top = some (.instances l') ∧
        (l'.map fun i => (i.start, i.stop)).Perm (l.map fun i => (i.start, i.stop)) := by
  have hread : read s (b1 ++ "BEGIN:VCALENDAR".toList :: (body ++ "END:VCALENDAR".toList :: b2)) =
      .ok (some (.mk "VCALENDAR".toList ps ss)) := (C40_calendar (container s) _ _).mpr
    ⟨C40_complete (container s) rfl b1 b2 body ps ss h1 h2 hb h hv, hzone⟩
  have hvalid := (L145.read_valid hread).1
  exact C144_instances_partial s hT hfin w order heq b1 b2 body ps ss h1 h2 hb h hv
    (fun p hp => ⟨prop_readBack hT hw (hps p hp), version_valid hT (hps p hp) (hvalid p hp)⟩) cal
    (hev.imp fun _ _ h => good_event hT hw h) (fun d hd hu => ⟨good_kept hT hw (hother d hd hu).1, (hother d hd hu).2⟩) hzone env range hf o top

/-! ## A case -/

namespace L144
open L132 L137 ValueType PropText

/-- A thing to do. -/
def task : List ContentLine :=
  [line "UID" "2", line "DTSTAMP" "20200301T090000Z", line "SUMMARY" "a", line "SEQUENCE" "1", line "URL" "http://a/",
    line "CATEGORIES" "a,b", line "X-A" "b"]

def taskComp : Cont.Component := .mk "VTODO".toList (task.map fun l => ⟨l.name, l.text⟩) []

/-- The calendar of C137 with more lines. -/
def more : List (List Char) :=
  "VERSION:2.0".toList :: "PRODID:-//a".toList :: ("BEGIN:".toList ++ "VEVENT".toList) :: (weekly.map ContentLine.text ++
    ("END:".toList ++ "VEVENT".toList) :: ("BEGIN:".toList ++ "VEVENT".toList) :: (moved.map ContentLine.text ++
    ("END:".toList ++ "VEVENT".toList) :: ("BEGIN:".toList ++ "VTODO".toList) :: (task.map ContentLine.text ++
    ("END:".toList ++ "VTODO".toList) :: [])))

theorem more_body : Spec.Body (container L137.plain) true "VCALENDAR".toList more
    [⟨"VERSION".toList, "VERSION:2.0".toList⟩, ⟨"PRODID".toList, "PRODID:-//a".toList⟩] [comp weekly, comp moved, taskComp] :=
  .prop (by decide +kernel) (by decide +kernel) (by decide +kernel) (by decide +kernel) (by decide +kernel)
    (.prop (by decide +kernel) (by decide +kernel) (by decide +kernel) (by decide +kernel) (by decide +kernel)
    (.comp "VEVENT".toList (by decide +kernel) (by decide +kernel) (by decide +kernel) (by decide +kernel)
      (lines_body (by decide +kernel))
      (.comp "VEVENT".toList (by decide +kernel) (by decide +kernel) (by decide +kernel) (by decide +kernel)
        (lines_body (by decide +kernel))
        (.comp "VTODO".toList (by decide +kernel) (by decide +kernel) (by decide +kernel) (by decide +kernel)
          (lines_body (by decide +kernel)) .nil))))

theorem good_line {e : Env} {n v : String} (h1 : n.toList ≠ [] ∧ ∀ c ∈ n.toList, c.isAlphanum = true ∨ c = '-')
    (h : TypedLine (fun t s => e.accepts t (some s) = true) (fun n => e.tables.defaultOf (String.ofList n) = none) (line n v)) : GoodLine e (line n v) :=
  ⟨allowed_name h1 rfl (by simp [line]), by simp [line], fits_there (by simp [line]), h⟩

theorem no_type (n v ty : String) : SaysType (line n v) ty := ⟨none, noParam _ _ _, .inl rfl⟩

theorem plain_text {v : List Char} (h : '\\' ∉ v) : Denotes v v := by
  induction v with
  | nil => exact .nil
  | cons c v ih =>
    rw [List.mem_cons, not_or] at h
    exact .plain c (fun hc => h.1 hc.symm) (ih h.2)

theorem text_typed {ok : VType → List Char → Prop} {free : List Char → Prop} {n v : String} (h1 : upper n.toList ∈ textNames) (h2 : '\\' ∉ v.toList) :
    TypedLine ok free (line n v) := .text h1 ⟨no_type _ _ _, plain_text h2⟩

theorem task_good : GoodComp L137.plain.toEnv taskComp := by
  refine .mk (fun p hp => ?_) (by decide +kernel) (by simp)
  obtain ⟨l, hl, rfl⟩ := List.mem_map.mp hp
  refine ⟨l, rfl, rfl, ?_⟩
  simp only [task, List.mem_cons, List.not_mem_nil, or_false] at hl
  rcases hl with rfl | rfl | rfl | rfl | rfl | rfl | rfl
  · exact good_line (by decide +kernel) (text_typed (by decide +kernel) (by decide +kernel))
  · exact good_line (by decide +kernel) (.date (by decide +kernel) ⟨false, none, _, noParams _ _,
      time_text "03" "01" "09" 3 1 9 true "20200301T090000Z" (by decide +kernel) (by decide +kernel) (by decide +kernel), rfl, by simp, rfl⟩)
  · exact good_line (by decide +kernel) (text_typed (by decide +kernel) (by decide +kernel))
  · exact good_line (by decide +kernel) (.number (n := 1) (by decide +kernel) (no_type _ _ _)
      (.plain (digits _ 1 (by decide +kernel))))
  · exact good_line (by decide +kernel) (.uri (.inr (.inr (by decide +kernel))) (no_type _ _ _) (by decide +kernel) (by decide +kernel))
  · exact good_line (by decide +kernel) (.texts (vs := ["a".toList, "b".toList]) (.inl (by decide +kernel)) (no_type _ _ _)
      (.more (s := "a".toList) (r := "b".toList) ⟨plain_text (by decide +kernel), by decide +kernel⟩
        (.one ⟨plain_text (by decide +kernel), by decide +kernel⟩)))
  · exact good_line (by decide +kernel) (.extra (by decide +kernel) (by decide +kernel) (noParam _ _ _))

theorem weekly_good : GoodEvent L137.plain.toEnv (comp weekly) weeklyDesc := by
  refine ⟨weekly_kept.type, ⟨weekly, by simp [comp, Cont.Component.props], ?_, by simp only [weekly]; decide +kernel, weekly_describes, ?_⟩,
    fun p hp hk => absurd ((by decide +kernel : ∀ p ∈ (comp weekly).props, p.key ∈ known) p hp) hk, by simp [comp, Cont.Component.subs]⟩
  · intro l hl
    simp only [weekly, List.mem_cons, List.not_mem_nil, or_false] at hl
    rcases hl with rfl | rfl | rfl | rfl | rfl <;> exact allowed_name (by decide +kernel) rfl (by simp [line, there])
  · intro l hl
    simp only [weekly, List.mem_cons, List.not_mem_nil, or_false] at hl
    rcases hl with rfl | rfl | rfl | rfl | rfl <;> exact fits_there (by simp [line, there])

theorem moved_good : GoodEvent L137.plain.toEnv (comp moved) movedDesc := by
  refine ⟨moved_kept.type, ⟨moved, by simp [comp, Cont.Component.props], ?_, by simp only [moved]; decide +kernel, moved_describes, ?_⟩,
    fun p hp hk => absurd ((by decide +kernel : ∀ p ∈ (comp moved).props, p.key ∈ known) p hp) hk, by simp [comp, Cont.Component.subs]⟩
  · intro l hl
    simp only [moved, List.mem_cons, List.not_mem_nil, or_false] at hl
    rcases hl with rfl | rfl | rfl | rfl <;> exact allowed_name (by decide +kernel) rfl (by simp [line])
  · intro l hl
    simp only [moved, List.mem_cons, List.not_mem_nil, or_false] at hl
    rcases hl with rfl | rfl | rfl | rfl <;> exact fits_there (by simp [line])

end L144
open L137

/-- The conditions of `C144_lines_partial` are met by the calendar of C137 with more lines and a VTODO. -/
example (o : SetOrder) : ∃ c lines c', read L137.plain ([] ++ "BEGIN:VCALENDAR".toList :: (more ++ "END:VCALENDAR".toList :: [])) = .ok (some c) ∧
    written L137.plain.toEnv asWas asRead c = some lines ∧ read L137.plain lines = .ok (some c') ∧
    ∃ n, ∀ fuel ≥ n, ∃ l l', getVEvents L136.newYork o fuel L137.plain.toEnv c L136.inSpring true = some (.instances l) ∧
      getVEvents L136.newYork o fuel L137.plain.toEnv c' L136.inSpring true = some (.instances l') ∧
      (l'.map fun i => (i.start, i.stop)).Perm (l.map fun i => (i.start, i.stop)) :=
  C144_lines_partial L137.plain .base (fun _ _ => rfl) asWas (fun _ _ _ => rfl) asRead (fun _ _ h => by cases h) [] [] more _ _ (by simp [Spec.Blank])
    (by simp [Spec.Blank]) (.inl rfl) more_body ⟨⟨"VERSION".toList, "VERSION:2.0".toList⟩, by simp, by decide +kernel⟩ (by
      intro p hp
      simp only [List.mem_cons, List.not_mem_nil, or_false] at hp
      rcases hp with rfl | rfl
      · exact ⟨L132.line "VERSION" "2.0", by decide +kernel, rfl, good_line (by decide +kernel) (text_typed (by decide +kernel) (by decide +kernel))⟩
      · exact ⟨L132.line "PRODID" "-//a", by decide +kernel, rfl, good_line (by decide +kernel) (text_typed (by decide +kernel) (by decide +kernel))⟩)
    [weeklyDesc, movedDesc] (.cons weekly_good (.cons moved_good .nil)) (fun d hd hu => by
      simp only [List.mem_cons, List.not_mem_nil, or_false] at hd
      rcases hd with rfl | rfl | rfl
      · exact absurd (by decide +kernel) hu
      · exact absurd (by decide +kernel) hu
      · exact ⟨task_good, by decide +kernel⟩)
    (by decide +kernel) L136.newYork L136.inSpring (by
      intro d hd
      simp only [List.mem_cons, List.not_mem_nil, or_false] at hd
      rcases hd with rfl | rfl
      · exact weekly_fits
      · exact moved_fits) o true

end PyCal
