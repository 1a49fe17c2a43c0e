import Verif.Model.Compare
import Verif.Lemmas.DateTime

/-! Lemmas about `compareDateTime`. -/

namespace PyCal
open Spec

theorem cmpInt_lt (a b : Int) : cmpInt a b < 0 ↔ a < b := by unfold cmpInt; split <;> (try split) <;> omega
theorem cmpInt_eq (a b : Int) : cmpInt a b = 0 ↔ a = b := by unfold cmpInt; split <;> (try split) <;> omega
theorem cmpInt_gt (a b : Int) : cmpInt a b > 0 ↔ a > b := by unfold cmpInt; split <;> (try split) <;> omega
theorem cmpInt_neg (a b : Int) : cmpInt b a = -cmpInt a b := by
  unfold cmpInt; split <;> split <;> (try split) <;> (try split) <;> omega
theorem cmpInt_cases (a b : Int) : cmpInt a b = -1 ∧ a < b ∨ cmpInt a b = 0 ∧ a = b ∨
    cmpInt a b = 1 ∧ a > b := by unfold cmpInt; split <;> (try split) <;> omega

namespace DateTime

/-- Lexicographic order of the date fields. -/
def DateLt (a b : DateTime) : Prop := a.date.lt b.date

/-- Lexicographic order of the date and time fields. -/
def FieldsLt (a b : DateTime) : Prop :=
  a.date.lt b.date ∨ a.date = b.date ∧
    (a.hours < b.hours ∨ a.hours = b.hours ∧
      (a.minutes < b.minutes ∨ a.minutes = b.minutes ∧ a.seconds < b.seconds))

theorem cmpDate_lt (a b : DateTime) : cmpDate a b < 0 ↔ a.date.lt b.date := by
  unfold cmpDate Date.lt date
  rcases cmpInt_cases a.year b.year with ⟨h, h'⟩ | ⟨h, h'⟩ | ⟨h, h'⟩ <;>
  rcases cmpInt_cases a.month b.month with ⟨h2, h2'⟩ | ⟨h2, h2'⟩ | ⟨h2, h2'⟩ <;>
  rcases cmpInt_cases a.day b.day with ⟨h3, h3'⟩ | ⟨h3, h3'⟩ | ⟨h3, h3'⟩ <;>
  simp [h, h2, h3] <;> omega

theorem cmpDate_eq (a b : DateTime) : cmpDate a b = 0 ↔ a.date = b.date := by
  unfold cmpDate date
  simp only [Date.mk.injEq]
  rcases cmpInt_cases a.year b.year with ⟨h, h'⟩ | ⟨h, h'⟩ | ⟨h, h'⟩ <;>
  rcases cmpInt_cases a.month b.month with ⟨h2, h2'⟩ | ⟨h2, h2'⟩ | ⟨h2, h2'⟩ <;>
  rcases cmpInt_cases a.day b.day with ⟨h3, h3'⟩ | ⟨h3, h3'⟩ | ⟨h3, h3'⟩ <;>
  simp [h, h2, h3] <;> omega

theorem cmpDate_neg (a b : DateTime) : cmpDate b a = -cmpDate a b := by
  unfold cmpDate
  simp only [cmpInt_neg a.year b.year, cmpInt_neg a.month b.month, cmpInt_neg a.day b.day]
  split <;> split <;> (try split) <;> (try split) <;> omega

theorem cmpFields_eq_date (a b : DateTime) :
    cmpFields a b = if cmpDate a b = 0 then
        (if cmpInt a.hours b.hours = 0 then
          if cmpInt a.minutes b.minutes = 0 then cmpInt a.seconds b.seconds
          else cmpInt a.minutes b.minutes
        else cmpInt a.hours b.hours)
      else cmpDate a b := by
  unfold cmpFields cmpDate
  repeat' split
  all_goals first | rfl | omega

theorem cmpFields_lt (a b : DateTime) : cmpFields a b < 0 ↔ FieldsLt a b := by
  rw [cmpFields_eq_date]
  unfold FieldsLt
  rw [← cmpDate_lt, ← cmpDate_eq]
  rcases cmpInt_cases a.hours b.hours with ⟨h, h'⟩ | ⟨h, h'⟩ | ⟨h, h'⟩ <;>
  rcases cmpInt_cases a.minutes b.minutes with ⟨h2, h2'⟩ | ⟨h2, h2'⟩ | ⟨h2, h2'⟩ <;>
  rcases cmpInt_cases a.seconds b.seconds with ⟨h3, h3'⟩ | ⟨h3, h3'⟩ | ⟨h3, h3'⟩ <;>
  simp [h, h2, h3] <;> (try split) <;> omega

theorem cmpFields_eq (a b : DateTime) : cmpFields a b = 0 ↔ a.civil = b.civil := by
  rw [cmpFields_eq_date]
  unfold civil
  simp only [Time.mk.injEq]
  rw [← cmpDate_eq]
  rcases cmpInt_cases a.hours b.hours with ⟨h, h'⟩ | ⟨h, h'⟩ | ⟨h, h'⟩ <;>
  rcases cmpInt_cases a.minutes b.minutes with ⟨h2, h2'⟩ | ⟨h2, h2'⟩ | ⟨h2, h2'⟩ <;>
  rcases cmpInt_cases a.seconds b.seconds with ⟨h3, h3'⟩ | ⟨h3, h3'⟩ | ⟨h3, h3'⟩ <;>
  simp [h, h2, h3] <;> (try split) <;> omega

theorem cmpFields_neg (a b : DateTime) : cmpFields b a = -cmpFields a b := by
  rw [cmpFields_eq_date, cmpFields_eq_date]
  simp only [cmpDate_neg a b, cmpInt_neg a.hours b.hours, cmpInt_neg a.minutes b.minutes,
    cmpInt_neg a.seconds b.seconds]
  repeat' split
  all_goals omega

theorem tzSame_comm (u1 u2 : Bool) (z1 z2 : Option TzId) :
    tzSame u1 z1 u2 z2 = tzSame u2 z2 u1 z1 := by
  unfold tzSame compareTzSafe
  rw [Bool.or_comm]
  split
  · rfl
  · cases u1 <;> cases u2 <;> simp [eq_comm]

theorem compare_neg (env : TzEnv) (a b : DateTime) : compare env b a = -compare env a b := by
  unfold compare
  rw [Bool.or_comm, tzSame_comm]
  split
  · exact cmpDate_neg a b
  · split
    · exact cmpFields_neg a b
    · exact cmpInt_neg _ _

theorem date_lt_trans {a b c : Date} (h : a.lt b) (h' : b.lt c) : a.lt c := by
  unfold Date.lt at *; omega

theorem fieldsLt_trans {a b c : DateTime} (h : FieldsLt a b) (h' : FieldsLt b c) :
    FieldsLt a c := by
  unfold FieldsLt Date.lt at *
  simp only [date, Date.mk.injEq] at *
  omega

theorem fieldsLt_iff_timeNum {a b : DateTime} (ha : a.civil.Valid) (hb : b.civil.Valid) :
    FieldsLt a b ↔ timeNum a.civil < timeNum b.civil := by
  have hd := dayNum_lt_iff ((validYMD_iff _ _ _).mpr ha.1) ((validYMD_iff _ _ _).mpr hb.1)
  have hi := fun h => dayNum_inj ((validYMD_iff _ _ _).mpr ha.1) ((validYMD_iff _ _ _).mpr hb.1) h
  obtain ⟨_, ha⟩ := ha
  obtain ⟨_, hb⟩ := hb
  unfold FieldsLt timeNum
  simp only [date, civil, Date.mk.injEq, Date.lt] at *
  constructor
  · rintro (h | ⟨⟨h1, h2, h3⟩, h⟩)
    · have := hd.mpr h
      omega
    · rw [h1, h2, h3]; omega
  · intro h
    by_cases hl : dayNum a.year a.month a.day < dayNum b.year b.month b.day
    · exact Or.inl (hd.mp hl)
    · have he : dayNum a.year a.month a.day = dayNum b.year b.month b.day := by omega
      have := hi he
      right
      refine ⟨by simpa using this, ?_⟩
      omega

end DateTime
end PyCal
