import Verif.Props.C144_Rewrite
import Verif.Props.C147_FreeBusyText

/-!
# C144: periods that are written and read again
-/

namespace PyCal
open DateTime Spec Spec.EventText Spec.CalendarText Spec.FreeBusyText EventRead Rewrite

namespace L144
open L132 L137 L147 ValueType PropText

theorem digits_plus {s : List Char} {n : Nat} (h : Dur.Digits s n) : '+' ∉ s := by
  have hd : ∀ k, k < 10 → '+' ≠ Char.ofNat (48 + k) := by decide
  induction h with
  | one k h => simpa using hd k h
  | snoc k n h s _ ih => simp only [List.mem_append, List.mem_singleton, not_or]; exact ⟨ih, hd k h⟩

theorem body_plus {s : List Char} {n : Nat} (h : Dur.Body s n) : '+' ∉ s := by
  have hs : ∀ {s n}, Dur.Second s n → '+' ∉ s := by
    intro s n h; cases h with | mk h => have := digits_plus h; simp [this]
  have hm : ∀ {s n}, Dur.Minute s n → '+' ∉ s := by
    intro s n h
    cases h with
    | bare h => have := digits_plus h; simp [this]
    | more h k => have := digits_plus h; have := hs k; simp [*]
  have hh : ∀ {s n}, Dur.Hour s n → '+' ∉ s := by
    intro s n h
    cases h with
    | bare h => have := digits_plus h; simp [this]
    | more h k => have := digits_plus h; have := hm k; simp [*]
  have ht : ∀ {s n}, Dur.Time s n → '+' ∉ s := by
    intro s n h
    cases h with
    | hour h => have := hh h; simp [this]
    | minute h => have := hm h; simp [this]
    | second h => have := hs h; simp [this]
  cases h with
  | week h => have := digits_plus h; simp [this]
  | day h => have := digits_plus h; simp [this]
  | dayTime h k => have := digits_plus h; have := ht k; simp [*]
  | time k => exact ht k

/-- What is written for a period is a text of the same period. -/
theorem period_again {e : Env} {w : Writer} {tz : Option TzId} {s : List Char} {p : DateTime × DateTime} (h : PeriodText s p)
    (hp : '+' ∉ s) : PeriodText (itemText e w .period tz s) p ∧ '+' ∉ itemText e w .period tz s := by
  cases h with
  | @ends a b t u h1 h2 h3 h4 =>
    have hq : PeriodObj.parseText e.sr e.strict (a ++ '/' :: b) = .ok (.ofEnd t u) := by
      refine (PeriodObj.C79_accepts _ _ _ _ _).mpr ⟨a, b, t, rfl, ?_, text_parse h1 e.sr, .inr ⟨?_, u, text_parse h2 e.sr, rfl⟩⟩
      · rw [(dateTimeText_until h1).1]; exact PeriodObj.textForm_slash false t
      · rw [(dateTimeText_until h2).1]; exact PeriodObj.textForm_head false u
    have ht : itemText e w .period tz (a ++ '/' :: b) = a ++ '/' :: b := by
      unfold itemText
      rw [if_neg (by simp), if_pos rfl, hq]
      show t.getText ++ '/' :: u.getText = _
      rw [show t.getText = a from getText_in none h1, show u.getText = b from getText_in none h2]
    rw [ht]
    exact ⟨.ends h1 h2 h3 h4, hp⟩
  | @lasts a b t k u h1 h3 h2 h4 h5 =>
    obtain ⟨D, d1, d2⟩ := Duration.C15_parse_grammar _ _ h2 e.strict
    have hq : PeriodObj.parseText e.sr e.strict (a ++ '/' :: b) = .ok (.ofDuration t D) := by
      refine (PeriodObj.C79_accepts _ _ _ _ _).mpr ⟨a, b, t, rfl, ?_, text_parse h1 e.sr, .inl ⟨?_, D, d1, rfl⟩⟩
      · rw [(dateTimeText_until h1).1]; exact PeriodObj.textForm_slash false t
      · cases h2 with
        | plain => rfl
        | plus => simp at hp
        | minus => omega
    have ht : itemText e w .period tz (a ++ '/' :: b) = a ++ '/' :: D.generate := by
      unfold itemText
      rw [if_neg (by simp), if_pos rfl, hq]
      show t.getText ++ '/' :: D.generate = _
      rw [show t.getText = a from getText_in none h1]
    have hD := (Duration.C15_roundtrip_parsed _ _ _ d1).1
    have hhead := PeriodObj.generate_head (d := D) (by omega)
    rw [ht]
    refine ⟨.lasts h1 h3 hD (by omega) (d2 ▸ h5), ?_⟩
    have hplus : '+' ∉ D.generate := by
      clear ht hq d1 d2
      generalize D.totalSeconds = n at hD
      generalize D.generate = g at hD hhead
      cases hD with
      | plain h => have := body_plus h; simp [this]
      | plus => simp at hhead
      | minus => simp at hhead
    simp only [List.mem_append, List.mem_cons, not_or] at hp ⊢
    exact ⟨hp.1, by decide, hplus⟩

theorem sep_again {e : Env} {w : Writer} {tz : Option TzId} {s : List Char} {ps : List (DateTime × DateTime)}
    (h : Recur.Sep ',' PeriodText s ps) (hp : '+' ∉ s) :
    Recur.Sep ',' PeriodText (joinSep ',' ((splitOn ',' s).map (itemText e w .period tz))) ps ∧
      '+' ∉ joinSep ',' ((splitOn ',' s).map (itemText e w .period tz)) := by
  induction h with
  | one h =>
    rw [splitOn_free (period_comma h)]
    obtain ⟨h1, h2⟩ := period_again (e := e) (w := w) (tz := tz) h hp
    exact ⟨.one h1, h2⟩
  | @more s p r l h _ ih =>
    simp only [List.mem_append, List.mem_cons, not_or] at hp
    obtain ⟨h1, h2⟩ := period_again (e := e) (w := w) (tz := tz) h hp.1
    obtain ⟨i1, i2⟩ := ih hp.2.2
    rw [splitOn_append (period_comma h), List.map_cons]
    cases hs : splitOn ',' r with
    | nil => exact absurd hs (splitOn_ne_nil _ _)
    | cons a b =>
      rw [hs] at i1 i2
      rw [List.map_cons] at i1 i2 ⊢
      rw [joinSep]
      refine ⟨.more h1 i1, ?_⟩
      simp only [List.mem_append, List.mem_cons, not_or]
      exact ⟨h2, by decide, i2⟩

/-- What is made of the value of a FREEBUSY property. -/
theorem create_periods {e : Env} (hT : Program ical e.tables) {name : List Char} {ps : List Param} (hn : upper name = "FREEBUSY".toList)
    (hv : (paramValue ps "VALUE").map String.ofList = none ∨ (paramValue ps "VALUE").map String.ofList = some "PERIOD") {s : List Char}
    {rs : List (DateTime × DateTime)} (hs : Recur.Sep ',' PeriodText s rs) (hp : '+' ∉ s) :
    createValue e name ps (some s) = some (.multi (rs.map fun p => .period (.ofEnd p.1 p.2))) := by
  have hkey : String.ofList (upper name) = "FREEBUSY" := by rw [hn]; rfl
  have hdet : determine e.tables "FREEBUSY" ((paramValue ps "VALUE").map String.ofList) = .period := by
    rw [determine_keeps hT (by decide +kernel)]
    rcases hv with h | h <;> rw [h] <;> decide +kernel
  have hsplit := (sep_plain hs hp).split (fun _ _ h => period_comma h.1)
  have hmap : (splitOn ',' s).mapM (parseItem e .period) = some (rs.map fun p => RecurLoad.Item.period (.ofEnd p.1 p.2)) := by
    generalize splitOn ',' s = ss at hsplit
    clear hs
    induction hsplit with
    | nil => rfl
    | @cons s t ss ts h1 _ ih =>
      rw [List.mapM_cons, item_period h1.1 h1.2, ih]
      rfl
  unfold createValue
  dsimp only
  rw [hkey, hdet, (program_keeps hT).2.2.1, if_pos (by decide +kernel), hmap]
  simp only [reduceCtorEq, or_self, if_false, Option.map_some, List.map_map]
  rfl

theorem periods_again {e : Env} (hT : Program ical e.tables) {w : Writer} {l : ContentLine} (ha : l.Allowed false)
    (hr : ∀ p ∈ l.params, ∀ v ∈ p.values, v.Readable) (hf : LineFits l) (hn : upper l.name = "FREEBUSY".toList)
    (hp : ∃ v, HasParam l "VALUE".toList v ∧ (v = none ∨ v = some "PERIOD".toList)) {rs : List (DateTime × DateTime)}
    (ht : Recur.Sep ',' PeriodText l.value rs) (hplus : '+' ∉ l.value) :
    Again e w l (· = .multi (rs.map fun p => .period (.ofEnd p.1 p.2))) := by
  have hkey : String.ofList (upper l.name) = "FREEBUSY" := by rw [hn]; rfl
  have hval : (paramValue (l.params.map ShownParam.meaning) "VALUE").map String.ofList = none ∨
      (paramValue (l.params.map ShownParam.meaning) "VALUE").map String.ofList = some "PERIOD" := by
    obtain ⟨v, hv, hvv⟩ := hp
    rw [paramValue_of hv]
    rcases hvv with rfl | rfl
    · exact .inl rfl
    · exact .inr rfl
  have hdet : determine e.tables "FREEBUSY" ((paramValue (l.params.map ShownParam.meaning) "VALUE").map String.ofList) = .period := by
    rw [determine_keeps hT (by decide +kernel)]
    rcases hval with h | h <;> rw [h] <;> decide +kernel
  have hc := create_periods hT hn hval ht hplus
  have hv : valueOfParam e l (.multi (rs.map fun p => .period (.ofEnd p.1 p.2))) = writtenValue e.tables "FREEBUSY" .period := by
    unfold valueOfParam
    dsimp only
    rw [hkey, hdet, valueType, (program_keeps hT).2.2.1, if_pos (by decide +kernel)]
  have hw : writtenValue e.tables "FREEBUSY" .period = none ∨ writtenValue e.tables "FREEBUSY" .period = some "PERIOD" := by
    rw [written_keeps ical_coherent hT (by decide +kernel)]
    by_cases hal : "FREEBUSY" ∈ e.tables.always
    · rw [if_pos hal]; clear hal; decide +kernel
    · rw [if_neg hal]; clear hal; decide +kernel
  obtain ⟨text, ps, r1, r2, r3, r4, r5, r6⟩ := reread (w := w) ha hr hf hc (by
    rw [hv]
    intro x hx
    rcases hw with h | h <;> rw [h] at hx <;> cases hx
    decide +kernel)
  refine ⟨_, text, ps, _, line_created ha hr hc, r1, r2, ?_, .inl rfl, rfl, r6, by
    unfold typeOf
    rw [r4, hv, hkey, hdet, determine_keeps hT (by decide +kernel)]
    rcases hw with h | h <;> rw [h] <;> decide +kernel⟩
  have htext : ∃ tz, textOf e w l (.multi (rs.map fun p => .period (.ofEnd p.1 p.2))) =
      joinSep ',' ((splitOn ',' l.value).map (itemText e w .period tz)) := by
    unfold textOf valueText
    dsimp only
    rw [hkey, hdet, Option.getD_some]
    exact ⟨_, rfl⟩
  obtain ⟨tz, htext⟩ := htext
  obtain ⟨t1, t2⟩ := sep_again (e := e) (w := w) (tz := tz) ht hplus
  rw [r3, htext, create_periods hT hn (by rw [r4, hv]; exact hw) t1 t2]
  rfl

end L144
end PyCal
