import Verif.Model.ParserContext
import Verif.Model.Numbers
import Verif.Props.C15_C16_DurationText
import Verif.Props.C20_C21_Escaping
import Mathlib.Tactic.SplitIfs

/-! # C124: what is read after `ParserContext.allRaise()`

C124: After `ParserContext.allRaise()`, whatever the settings were before, a value is read exactly if it is
written as the standards say, and as the same value as before. -/

namespace PyCal
open ParserContext Spec.Dur

namespace Strict124

/-! ## What may be written -/

/-- A text in which every backslash begins one of the escapes that are known, with what it says; a
backslash at the very end says nothing. -/
inductive Escapes : List Char → List Char → Prop
  | nil : Escapes [] []
  | last : Escapes ['\\'] []
  | plain {c s r} : c ≠ '\\' → Escapes s r → Escapes (c :: s) (c :: r)
  | same {c s r} : c ∈ ['\\', ';', ','] → Escapes s r → Escapes ('\\' :: c :: s) (c :: r)
  | newline {c s r} : c ∈ ['n', 'N'] → Escapes s r → Escapes ('\\' :: c :: s) ('\n' :: r)
  | ret {s r} : Escapes s r → Escapes ('\\' :: 'r' :: s) ('\r' :: r)

/-- The part after the `T`, with the seconds right after the hours allowed. -/
inductive Clock : List Char → Nat → Prop
  | hour {s k} : Hour s k → Clock s k
  | minute {s k} : Minute s k → Clock s k
  | second {s k} : Second s k → Clock s k
  | gap {s n r k} : Digits s n → Second r k → Clock (s ++ ['H'] ++ r) (3600 * n + k)

/-- The part after the `P`. -/
inductive Amount : List Char → Nat → Prop
  | week {s n} : Digits s n → Amount (s ++ ['W']) (604800 * n)
  | day {s n} : Digits s n → Amount (s ++ ['D']) (86400 * n)
  | dayTime {s n r k} : Digits s n → Clock r k → Amount (s ++ ['D', 'T'] ++ r) (86400 * n + k)
  | time {r k} : Clock r k → Amount ('T' :: r) k

/-- A duration as RFC 5545 writes it, or with seconds right after the hours; `k` seconds. -/
inductive Written : List Char → Int → Prop
  | plain {s k} : Amount s k → Written ('P' :: s) k
  | plus {s k} : Amount s k → Written ('+' :: 'P' :: s) k
  | minus {s} {k : Nat} : Amount s k → Written ('-' :: 'P' :: s) (-k)

/-- The number of semicolons that do not follow a backslash. -/
def semicolons : Option Char → List Char → Nat
  | _, [] => 0
  | pre, c :: s => (if c = ';' ∧ pre ≠ some '\\' then 1 else 0) + semicolons (some c) s

/-! ## Numbers -/

theorem digits_rev (s : List Char) (h : ∀ c ∈ s, isDigit c = true) (hn : s ≠ []) :
    Digits s.reverse (readNat s.reverse) := by
  induction s with
  | nil => exact absurd rfl hn
  | cons c s ih =>
    have hc : isDigit c = true := h c (by simp)
    have e : c = Char.ofNat (48 + digitVal c) := by
      simp only [isDigit, digitVal, Bool.and_eq_true, decide_eq_true_eq] at *
      rw [show 48 + (c.toNat - 48) = c.toNat by omega, Char.ofNat_toNat]
    have hk : digitVal c < 10 := by
      simp only [isDigit, digitVal, Bool.and_eq_true, decide_eq_true_eq] at *
      omega
    rw [List.reverse_cons, readNat_append_digit]
    cases s with
    | nil =>
      have := Digits.one _ hk
      rw [← e] at this
      simpa [readNat] using this
    | cons a s =>
      have := Digits.snoc _ _ hk _ (ih (fun c hc => h c (List.mem_cons_of_mem _ hc)) (by simp))
      rw [← e] at this
      rwa [Nat.mul_comm]

theorem digits_of {s : List Char} (h : ∀ c ∈ s, isDigit c = true) (hn : s ≠ []) : Digits s (readNat s) := by
  have := digits_rev s.reverse (fun c hc => h c (by simpa using hc)) (by simpa using hn)
  rwa [List.reverse_reverse] at this

/-- What a number that is read looks like. -/
theorem strtoul_inv {s r : List Char} {n : Nat} (h : strtoul s = some (n, r)) : ∃ t, Digits t n ∧ s = t ++ r := by
  unfold strtoul at h
  dsimp only at h
  split_ifs at h with hn
  simp only [Option.some.injEq, Prod.mk.injEq] at h
  refine ⟨s.takeWhile isDigit, ?_, ?_⟩
  · rw [← h.1]
    exact digits_of (fun c hc => List.all_eq_true.1 List.all_takeWhile c hc) hn
  · rw [← h.2, List.takeWhile_append_dropWhile]

/-! ## Durations -/

theorem sec_inv {d r : Duration} {n : Nat} {s : List Char} (h : Duration.parseSec d n s = some r) :
    s = ['S'] ∧ r = { d with seconds := n } := by
  unfold Duration.parseSec at h
  split at h
  · exact ⟨rfl, by simpa using h.symm⟩
  · simp at h

theorem min_inv {d r : Duration} {n : Nat} {t s : List Char} (ht : Digits t n) (h : Duration.parseMin d n s = some r) :
    ∃ m x : Option Nat, r = { d with minutes := m.getD d.minutes, seconds := x.getD d.seconds } ∧
      ((Minute (t ++ s) (60 * m.getD 0 + x.getD 0)) ∨ (m = none ∧ Second (t ++ s) (x.getD 0))) := by
  unfold Duration.parseMin at h
  split at h
  · rename_i s'
    dsimp only at h
    split_ifs at h with hs
    · subst hs
      refine ⟨some n, none, by simpa using h.symm, Or.inl ?_⟩
      simpa using Minute.bare ht
    · split at h
      · simp at h
      · rename_i num r' hr
        obtain ⟨u, hu, rfl⟩ := strtoul_inv hr
        obtain ⟨rfl, rfl⟩ := sec_inv h
        refine ⟨some n, some num, rfl, Or.inl ?_⟩
        simpa using Minute.more ht (Second.mk hu)
  · obtain ⟨rfl, rfl⟩ := sec_inv h
    exact ⟨none, some n, rfl, Or.inr ⟨rfl, Second.mk ht⟩⟩

theorem time_inv {d r : Duration} {s : List Char} (h : Duration.parseTime true d s = some r) :
    ∃ hh mi se : Option Nat, r = { d with
        hours := hh.getD d.hours, minutes := mi.getD d.minutes, seconds := se.getD d.seconds } ∧
      Clock s (3600 * hh.getD 0 + 60 * mi.getD 0 + se.getD 0) := by
  unfold Duration.parseTime at h
  split_ifs at h with hs h0
  · exact absurd rfl h0
  · split at h
    · simp at h
    · rename_i num s' hn
      obtain ⟨t, ht, rfl⟩ := strtoul_inv hn
      dsimp only at h
      split_ifs at h with hs'
      · subst hs'
        refine ⟨some num, none, none, by simpa using h.symm, ?_⟩
        simpa using Clock.hour (Hour.bare ht)
      · split at h
        · simp at h
        · rename_i num' s'' hn'
          obtain ⟨u, hu, rfl⟩ := strtoul_inv hn'
          obtain ⟨m, x, rfl, hm | ⟨rfl, hm⟩⟩ := min_inv hu h
          · refine ⟨some num, m, x, rfl, ?_⟩
            have := Clock.hour (Hour.more ht hm)
            simpa [Nat.add_assoc] using this
          · refine ⟨some num, none, x, rfl, ?_⟩
            have := Clock.gap ht hm
            simpa [Nat.add_assoc] using this
    · rename_i num s' _ hn
      obtain ⟨t, ht, rfl⟩ := strtoul_inv hn
      obtain ⟨m, x, rfl, hm | ⟨rfl, hm⟩⟩ := min_inv ht h
      · exact ⟨none, m, x, rfl, by simpa using Clock.minute hm⟩
      · exact ⟨none, none, x, rfl, by simpa using Clock.second hm⟩

/-- An object with no amounts. -/
def Empty (d : Duration) : Prop :=
  d.weeks = 0 ∧ d.days = 0 ∧ d.hours = 0 ∧ d.minutes = 0 ∧ d.seconds = 0

theorem body_inv {d r : Duration} (hd : Empty d) {s : List Char} (h : Duration.parseBody true d s = some r) :
    ∃ t k, s = 'P' :: t ∧ Amount t k ∧ r.totalSeconds = (if d.forward then 1 else -1) * (k : Int) := by
  obtain ⟨h1, h2, h3, h4, h5⟩ := hd
  have time : ∀ (d' : Duration) t, d'.forward = d.forward → d'.weeks = 0 → d'.hours = 0 → d'.minutes = 0 →
      d'.seconds = 0 → Duration.parseTime true d' t = some r → ∃ k, Clock t k ∧
        r.totalSeconds = (if d.forward then 1 else -1) * ((86400 * d'.days + k : Nat) : Int) := by
    intro d' t hf hw hh hm hs ht
    obtain ⟨a, b, c, rfl, hc⟩ := time_inv ht
    refine ⟨_, hc, ?_⟩
    simp only [Duration.totalSeconds, hf, hw, hh, hm, hs]
    cases d.forward <;> simp only [if_true, Bool.false_eq_true, if_false] <;> omega
  unfold Duration.parseBody at h
  split at h
  · rename_i t
    obtain ⟨k, hk, he⟩ := time d t rfl h1 h3 h4 h5 h
    rw [h2] at he
    exact ⟨_, k, rfl, Amount.time hk, by simpa using he⟩
  · rename_i t _
    split at h
    · simp at h
    · rename_i num s'' hn
      obtain ⟨u, hu, rfl⟩ := strtoul_inv hn
      unfold Duration.parseDate at h
      split at h
      · split_ifs at h with hw
        rename_i s' _
        obtain rfl : s' = [] := by simpa using hw
        refine ⟨_, _, rfl, Amount.week hu, ?_⟩
        obtain rfl := Option.some.inj h
        simp only [Duration.totalSeconds, h2, h3, h4, h5]
        cases d.forward <;> simp only [if_true, Bool.false_eq_true, if_false] <;> omega
      · refine ⟨_, _, rfl, Amount.day hu, ?_⟩
        obtain rfl := Option.some.inj h
        simp only [Duration.totalSeconds, h1, h3, h4, h5]
        cases d.forward <;> simp only [if_true, Bool.false_eq_true, if_false] <;> omega
      · rename_i s' _
        obtain ⟨k, hk, he⟩ := time { d with days := num } s' rfl h1 h3 h4 h5 h
        refine ⟨_, _, rfl, by simpa using Amount.dayTime hu hk, he⟩
      · simp at h
  · simp at h

theorem clock_ok {s : List Char} {k : Nat} (h : Clock s k) (d : Duration) :
    ∃ hh mi se : Option Nat, Duration.parseTime true d s = some { d with
        hours := hh.getD d.hours, minutes := mi.getD d.minutes, seconds := se.getD d.seconds } ∧
      3600 * hh.getD 0 + 60 * mi.getD 0 + se.getD 0 = k := by
  cases h with
  | hour h => exact Duration.parseTime_ok (Time.hour h) true d
  | minute h => exact Duration.parseTime_ok (Time.minute h) true d
  | second h => exact Duration.parseTime_ok (Time.second h) true d
  | @gap s n r k hs hr =>
    refine ⟨some n, none, some k, ?_, by simp⟩
    obtain ⟨m, r', h1, rfl, rfl, h2⟩ := Duration.parseSec_ok hr { d with hours := n }
    have := hs.strtoul ('H' :: r) (by simp; decide)
    simp [Duration.parseTime, this, Duration.second_ne_nil hr, h1, Duration.parseMin, h2]

theorem amount_ok {s : List Char} {k : Nat} (h : Amount s k) (d : Duration) (hd : Empty d) :
    ∃ r, Duration.parseBody true d ('P' :: s) = some r ∧
      r.totalSeconds = (if d.forward then 1 else -1) * (k : Int) := by
  obtain ⟨h1, h2, h3, h4, h5⟩ := hd
  cases h with
  | @week s n hs =>
    refine ⟨{ d with weeks := n }, ?_, ?_⟩
    · rw [(Duration.parseBody_digits hs true d 'W' (by decide) []).2]; simp [Duration.parseDate]
    · simp only [Duration.totalSeconds, h2, h3, h4, h5]
      cases d.forward <;> simp only [if_true, Bool.false_eq_true, if_false] <;> omega
  | @day s n hs =>
    refine ⟨{ d with days := n }, ?_, ?_⟩
    · rw [(Duration.parseBody_digits hs true d 'D' (by decide) []).2]; rfl
    · simp only [Duration.totalSeconds, h1, h3, h4, h5]
      cases d.forward <;> simp only [if_true, Bool.false_eq_true, if_false] <;> omega
  | @dayTime s n r k hs hr =>
    obtain ⟨hh, mi, se, e, hk⟩ := clock_ok hr { d with days := n }
    have := (Duration.parseBody_digits hs true d 'D' (by decide) ('T' :: r)).2.trans e
    refine ⟨_, by simpa using this, ?_⟩
    simp only [Duration.totalSeconds, h1, h3, h4, h5]
    cases d.forward <;> simp only [if_true, Bool.false_eq_true, if_false] <;> omega
  | @time r k hr =>
    obtain ⟨hh, mi, se, e, hk⟩ := clock_ok hr d
    refine ⟨_, e, ?_⟩
    simp only [Duration.totalSeconds, h1, h2, h3, h4, h5]
    cases d.forward <;> simp only [if_true, Bool.false_eq_true, if_false] <;> omega

/-! ## Texts -/

theorem unescape_raise {c : Char} {w : List Char} (h : unescape .raise .raise c = some w) :
    (c ∈ ['\\', ';', ','] ∧ w = [c]) ∨ (c ∈ ['n', 'N'] ∧ w = ['\n']) ∨ (c = 'r' ∧ w = ['\r']) := by
  unfold unescape at h
  split_ifs at h <;> simp_all <;> simp [← h]

theorem text_sound : ∀ (k : Nat) (s r : List Char), s.length ≤ k → decodeText .raise .raise s = some r → Escapes s r
  | 0, [], r, _, h => by
    rw [decodeText_nil] at h
    obtain rfl := Option.some.inj h
    exact .nil
  | k + 1, [], r, _, h => by
    rw [decodeText_nil] at h
    obtain rfl := Option.some.inj h
    exact .nil
  | k + 1, c :: s, r, hk, h => by
    by_cases hc : c = '\\'
    · subst hc
      cases s with
      | nil =>
        rw [decodeText_stop (Or.inr ⟨'\\', by simp⟩)] at h
        obtain rfl := Option.some.inj h
        exact .last
      | cons d s =>
        rw [decodeText_go (x := '\\') (c := d) (r := s) (by simp)] at h
        simp only [Option.bind_eq_some_iff, Option.map_eq_some_iff] at h
        obtain ⟨w, hw, t, ht, rfl⟩ := h
        have ih := text_sound k s t (by simp at hk; omega) ht
        rcases unescape_raise hw with ⟨h1, rfl⟩ | ⟨h1, rfl⟩ | ⟨rfl, rfl⟩
        · exact .same h1 ih
        · exact .newline h1 ih
        · exact .ret ih
    · rw [decodeText_plain _ _ hc, Option.map_eq_some_iff] at h
      obtain ⟨t, ht, rfl⟩ := h
      exact .plain hc (text_sound k s t (by simp at hk; omega) ht)

theorem text_complete {s r : List Char} (h : Escapes s r) (m o : PMode) : decodeText m o s = some r := by
  induction h with
  | nil => exact decodeText_nil _ _
  | last => rw [decodeText_stop (Or.inr ⟨'\\', by simp⟩)]; simp
  | plain hc _ ih => rw [decodeText_plain _ _ hc, ih]; rfl
  | @same c s r hc _ ih =>
    rw [decodeText_esc (w := [c]), ih]; · rfl
    simp only [List.mem_cons, List.not_mem_nil, or_false] at hc
    rcases hc with rfl | rfl | rfl <;> rfl
  | newline hc _ ih =>
    rw [decodeText_esc (w := ['\n']), ih]; · rfl
    simp only [List.mem_cons, List.not_mem_nil, or_false] at hc
    rcases hc with rfl | rfl <;> rfl
  | ret _ ih => rw [decodeText_esc (w := ['\r']) _ _ _ _ rfl, ih]; rfl

/-! ## Names and addresses -/

theorem nested_length (s : List Char) (pre : Option Char) (items : List (List Char)) (item : List Char) :
    (splitNested pre items item s).length = semicolons pre s + 1 := by
  induction s generalizing pre items item with
  | nil => rfl
  | cons c s ih =>
    unfold splitNested semicolons
    split_ifs <;> simp [ih] <;> omega

theorem mapM_length {α β : Type} {f : α → Option β} : ∀ {l : List α} {r : List β}, l.mapM f = some r → r.length = l.length
  | [], r, h => by simp at h; simp [← h]
  | a :: l, r, h => by
    simp only [List.mapM_cons, Option.bind_eq_bind, Option.bind_eq_some_iff, Option.pure_def, Option.some.injEq] at h
    obtain ⟨b, -, t, ht, rfl⟩ := h
    simp [mapM_length ht]

/-! ## Less is read -/

theorem text_mono {s r : List Char} (m o : PMode) (h : decodeText .raise .raise s = some r) : decodeText m o s = some r :=
  text_complete (text_sound _ s r (Nat.le_refl _) h) m o

theorem mapM_mono {α β : Type} {f g : α → Option β} (h : ∀ a b, f a = some b → g a = some b) :
    ∀ {l : List α} {r : List β}, l.mapM f = some r → l.mapM g = some r
  | [], r, hr => by simpa using hr
  | a :: l, r, hr => by
    simp only [List.mapM_cons, Option.bind_eq_bind, Option.bind_eq_some_iff, Option.pure_def, Option.some.injEq] at hr ⊢
    obtain ⟨b, hb, t, ht, rfl⟩ := hr
    exact ⟨b, h _ _ hb, t, mapM_mono h ht, rfl⟩

theorem comp_mono {l : List (List Char)} {r : Comp} (m o : PMode) (h : nestedComp .raise .raise l = some r) :
    nestedComp m o l = some r := by
  unfold nestedComp at h ⊢
  split at h
  · exact h
  · rw [Option.map_eq_some_iff] at h ⊢
    obtain ⟨a, ha, rfl⟩ := h
    exact ⟨a, text_mono m o ha, rfl⟩
  · rw [Option.map_eq_some_iff] at h
    obtain ⟨a, ha, rfl⟩ := h
    rw [mapM_mono (fun _ _ => text_mono m o) ha]; rfl

theorem time_mono {d r : Duration} {s : List Char} (b : Bool) (h : Duration.parseTime true d s = some r) :
    Duration.parseTime b d s = some r := by
  unfold Duration.parseTime at h ⊢
  by_cases hs : s = []
  · simp [hs] at h
  · rw [if_neg hs] at h ⊢
    exact h

theorem date_mono {d r : Duration} {n : Nat} {s : List Char} (b : Bool) (h : Duration.parseDate true d n s = some r) :
    Duration.parseDate b d n s = some r := by
  unfold Duration.parseDate at h ⊢
  split
  · rename_i s'
    change (if s' ≠ [] ∧ true = true then none else _) = _ at h
    split_ifs at h with hs
    rw [if_neg (by tauto)]
    exact h
  · exact h
  · exact time_mono b h
  · split at h <;> simp_all

theorem body_mono {d r : Duration} {s : List Char} (b : Bool) (h : Duration.parseBody true d s = some r) :
    Duration.parseBody b d s = some r := by
  unfold Duration.parseBody at h ⊢
  split
  · exact time_mono b h
  · split at h
    · simp_all
    · split at h
      · simp at h
      · rename_i hs
        simp_all only [List.cons.injEq, true_and]
        exact date_mono b h
    · simp at h
  · split at h <;> simp_all

theorem duration_mono {d r : Duration} {s : List Char} (b : Bool) (h : Duration.parse true d s = some r) :
    Duration.parse b d s = some r := by
  unfold Duration.parse at h ⊢
  split <;> exact body_mono b (by simpa using h)

open PropText in
theorem param_mono {txt : List Char} {v} (cfg cfg' : Config) (hc : cfg.noValues = .raise)
    (h : parseParam true cfg txt = some v) : parseParam true cfg' txt = some v := by
  unfold parseParam at h ⊢
  simp only [if_true, hc] at h ⊢
  split at h
  · split at h
    · simp at h
    · exact h
    · simp at h
  · simp at h

open PropText in
theorem params_mono (cfg cfg' : Config) (hc : cfg.noValues = .raise) : ∀ (k : Nat) (strip : Bool) (txt : List Char) (v),
    txt.length ≤ k → parseParams true cfg strip txt = .ok v → parseParams true cfg' strip txt = .ok v
  | k, strip, [], v, _, h => by
    rw [parseParams] at h ⊢; exact h
  | k + 1, strip, c :: t, v, hk, h => by
    rw [parseParams] at h ⊢
    by_cases h1 : c = ';'
    · rw [if_pos h1] at h ⊢
      split at h
      · simp at h
      · rename_i name w t1 s hp
        have hp' := param_mono cfg cfg' hc hp
        have hl := parseParam_length hp
        split at h
        · simp at h
        · rename_i vs t2 hv
          have hl2 := parseValues_length hv
          split
          · simp_all
          · rename_i hq
            rw [hp'] at hq
            simp only [Option.some.injEq, Prod.mk.injEq] at hq
            obtain ⟨⟨rfl, rfl⟩, rfl, rfl⟩ := hq
            split
            · simp_all
            · rename_i hv'
              rw [hv] at hv'
              simp only [Option.some.injEq, Prod.mk.injEq] at hv'
              obtain ⟨rfl, rfl⟩ := hv'
              split at h
              · rename_i hr
                rw [params_mono cfg cfg' hc k _ _ _ (by simp at hk hl hl2; omega) hr]
                exact h
              · simp at h
              · simp at h
    · rw [if_neg h1] at h ⊢
      exact h

/-! ## Hours and seconds -/

theorem digits_not {s : List Char} {n : Nat} (h : Digits s n) {c : Char} (hc : isDigit c = false) : c ∉ s := by
  intro hm
  rw [h.allDigits c hm] at hc
  cases hc

theorem hour_min {s : List Char} {k : Nat} (h : Hour s k) (hS : 'S' ∈ s) : 'M' ∈ s := by
  cases h with
  | bare hd =>
    exfalso
    have := digits_not hd (c := 'S') (by decide)
    simp_all
  | more hd hm =>
    cases hm <;> simp

theorem time_min {s : List Char} {k : Nat} (h : Time s k) (hS : 'S' ∈ s) (hH : 'H' ∈ s) : 'M' ∈ s := by
  cases h with
  | hour h =>
    have := hour_min h (by simpa using hS)
    simp [this]
  | minute h => cases h <;> simp
  | second h =>
    cases h with
    | mk hd =>
      exfalso
      have := digits_not hd (c := 'H') (by decide)
      simp_all

theorem body_min {s : List Char} {k : Nat} (h : Body s k) (hS : 'S' ∈ s) (hH : 'H' ∈ s) : 'M' ∈ s := by
  cases h with
  | week hd =>
    have := digits_not hd (c := 'H') (by decide)
    simp_all
  | day hd =>
    have := digits_not hd (c := 'H') (by decide)
    simp_all
  | dayTime hd ht =>
    have h1 := digits_not hd (c := 'H') (by decide)
    have h2 := digits_not hd (c := 'S') (by decide)
    have := time_min ht (by simp_all) (by simp_all)
    simp [this]
  | time ht => exact time_min ht hS hH

theorem value_min {s : List Char} {k : Int} (h : Value s k) (hS : 'S' ∈ s) (hH : 'H' ∈ s) : 'M' ∈ s := by
  cases h with
  | plain h => have := body_min h (by simpa using hS) (by simpa using hH); simp [this]
  | plus h => have := body_min h (by simpa using hS) (by simpa using hH); simp [this]
  | minus h => have := body_min h (by simpa using hS) (by simpa using hH); simp [this]

end Strict124

open Strict124

/-! ## C124 -/

/-- C124 for texts, exactly: after `allRaise` a text is read exactly if each backslash begins an escape that
is known or is the last character, and then as what the escapes say.  Missing: the standards know neither `\r`
nor a backslash at the end (`C124_fails_text`). -/
theorem C124_text_partial (c : ParserContext) (s r : List Char) : c.allRaise.text s = some r ↔ Escapes s r :=
  ⟨text_sound _ s r (Nat.le_refl _), fun h => text_complete h _ _⟩

/-- C124 for durations, exactly: after `allRaise` a duration is read exactly if RFC 5545 allows it or it has
seconds right after the hours, and then as the time it says.  Missing: `C124_fails_duration`. -/
theorem C124_duration_partial (c : ParserContext) (s : List Char) (k : Int) :
    (∃ d, c.allRaise.durationText s = some d ∧ d.totalSeconds = k) ↔ Written s k := by
  have h0 : ∀ b : Bool, Empty { Duration.ofSeconds 0 with forward := b } := fun b => ⟨rfl, rfl, rfl, rfl, rfl⟩
  show (∃ d, Duration.parse true (Duration.ofSeconds 0) s = some d ∧ _) ↔ _
  constructor
  · rintro ⟨d, h, rfl⟩
    unfold Duration.parse at h
    split at h
    · obtain ⟨t, k, rfl, hk, e⟩ := body_inv (h0 _) h
      rw [e]
      simpa using Written.minus hk
    · obtain ⟨t, k, rfl, hk, e⟩ := body_inv (h0 _) h
      rw [e]
      simpa using Written.plus hk
    · obtain ⟨t, k, rfl, hk, e⟩ := body_inv (h0 _) h
      rw [e]
      simpa using Written.plain hk
  · intro h
    cases h with
    | plain h =>
      obtain ⟨r, h1, h2⟩ := amount_ok h _ (h0 true)
      exact ⟨r, h1, by simpa using h2⟩
    | plus h =>
      obtain ⟨r, h1, h2⟩ := amount_ok h _ (h0 true)
      exact ⟨r, h1, by simpa using h2⟩
    | minus h =>
      obtain ⟨r, h1, h2⟩ := amount_ok h _ (h0 false)
      exact ⟨r, h1, by simpa using h2⟩

/-- C124 for names and addresses, exactly: after `allRaise` the value is read exactly if it has no more than
the `n` components it may have and is read without that setting, and then as the same. -/
theorem C124_nested (c : ParserContext) (m : PMode) (n : Nat) (s : List Char) (r : List Comp) :
    c.allRaise.nested n s = some r ↔
      semicolons none s < n ∧ ({ c.allRaise with adrN := m }).nested n s = some r := by
  unfold ParserContext.nested parseNested
  show (match (splitNested none [] [] s).mapM (nestedComp .raise .raise) with
    | none => none
    | some results => _) = _ ↔ _
  cases h : (splitNested none [] [] s).mapM (nestedComp .raise .raise) with
  | none => simp [ParserContext.allRaise, h]
  | some l =>
    have hl := mapM_length h
    rw [nested_length] at hl
    simp only [ParserContext.allRaise, h, List.length_append, List.length_replicate]
    by_cases hn : semicolons none s < n
    · rw [if_neg (by omega), if_neg (by omega)]
      simp [hn]
    · rw [if_pos (by omega)]
      simp [hn]

/-- C124: what is still read after `allRaise` was read before, whatever the settings, and as the same value:
texts, durations, names and addresses, lines of cards up to their value. -/
theorem C124_same (c d : ParserContext) (s : List Char) :
    (∀ r, c.allRaise.text s = some r → d.text s = some r) ∧
    (∀ r, c.allRaise.durationText s = some r → d.durationText s = some r) ∧
    (∀ n r, c.allRaise.nested n s = some r → d.nested n s = some r) ∧
    (∀ v, c.allRaise.cardLine s = .ok v → d.cardLine s = .ok v) := by
  refine ⟨fun r h => text_mono _ _ h, fun r h => duration_mono _ h, fun n r h => ?_, fun v h => ?_⟩
  · rw [C124_nested c d.adrN] at h
    obtain ⟨hn, h⟩ := h
    unfold ParserContext.nested parseNested at h ⊢
    simp only [ParserContext.allRaise] at h
    split at h
    · simp at h
    · rename_i hm
      rw [mapM_mono (fun _ _ => comp_mono _ _) hm]
      exact h
  · unfold ParserContext.cardLine PropText.parseText at h ⊢
    split at h
    · rename_i name t _
      by_cases hn : name = []
      · simp [hn] at h
      rw [if_neg hn] at h ⊢
      split at h
      · rename_i hp
        rw [params_mono _ { noValues := d.noValues, base64 := d.base64 } (by rfl) _ _ _ _ (Nat.le_refl _) hp]
        exact h
      · simp at h
      · simp at h
    · simp at h

/-- The hypotheses can be met: an address of seven components, with an escape. -/
example : (defaults.allRaise.nested 7 ";;1 Main St\\, left;Town;;;".toList).isSome = true := by decide +kernel

/-- C124 fails: a backslash at the end of a text is left out instead of refused, and `\r` is read. -/
theorem C124_fails_text (c : ParserContext) :
    c.allRaise.text "x\\".toList = some "x".toList ∧ c.allRaise.text "\\r".toList = some "\r".toList := by
  constructor <;> rw [C124_text_partial]
  · exact .plain (by decide) .last
  · exact .ret .nil

/-- C124 fails: seconds may follow the hours, which RFC 5545 does not allow. -/
theorem C124_fails_duration (c : ParserContext) :
    (∃ d, c.allRaise.durationText "PT1H5S".toList = some d ∧ d.totalSeconds = 3605) ∧
      ∀ k, ¬ Value "PT1H5S".toList k := by
  refine ⟨⟨Duration.ofSeconds 3605, show Duration.parseText true _ = _ by decide +kernel, by decide +kernel⟩, fun k h => ?_⟩
  exact absurd (value_min h (by decide +kernel) (by decide +kernel)) (by decide +kernel)

/-- C124 for dates: with the setting that refuses spaces in the place of digits, no text with a space in its first eight
characters is read as a date or date-time; that setting, and no other, matters. -/
theorem C124_space (c d : ParserContext) (self : DateTime) (s : List Char) (iso : Bool) :
    (c.leadingSpace = .raise → ' ' ∈ s.take 8 → c.dateText self s false = none) ∧
    ((c.leadingSpace = .raise ↔ d.leadingSpace = .raise) → c.dateText self s iso = d.dateText self s iso) := by
  constructor
  · intro hc hs
    show DateTime.parse (decide (c.leadingSpace = .raise)) self s false = none
    rw [hc]
    have : DateTime.parseDate (decide (PMode.raise = .raise)) self s false = none := by
      unfold DateTime.parseDate
      have e : ∀ (c : Char) (i : Nat), DateTime.skipSep s false c i = some i := fun _ _ => rfl
      simp only [e]
      cases pyInt (slice s 0 4) with
      | none => rfl
      | some y =>
        simp only [Option.bind_eq_bind, Option.bind_some]
        cases pyInt (slice s 4 (4 + 2)) with
        | none => rfl
        | some m =>
          simp only [Option.bind_some]
          cases pyInt (slice s (4 + 2) (4 + 2 + 2)) with
          | none => rfl
          | some d =>
            simp only [Option.bind_some]
            rw [if_pos]
            simpa using hs
    unfold DateTime.parse
    rw [this]
  · intro h
    show DateTime.parse (decide (c.leadingSpace = .raise)) self s iso =
      DateTime.parse (decide (d.leadingSpace = .raise)) self s iso
    rw [decide_eq_decide.2 h]

/-- A text that the setting refuses, and that is read by default. -/
example : ({ defaults with leadingSpace := .raise }).dateText {} "2020 1 2".toList false = none ∧
    (defaults.dateText {} "2020 1 2".toList false).isSome = true := by decide +kernel

/-- C124 fails: a backslash before the semicolon of a GEO is left out, whatever the setting for it, which nothing
reads. -/
theorem C124_fails_geo : Num.parseGeo "1.5\\;2".toList = Num.parseGeo "1.5;2".toList ∧
    Num.parseGeo "1.5;2".toList ≠ .invalid := by decide +kernel

/-- C124 fails: `allRaise` changes nothing for dates, so that a space for a digit is still read by default. -/
theorem C124_fails_date :
    (∀ (c : ParserContext) (self : DateTime) (s : List Char) (iso : Bool),
      c.allRaise.dateText self s iso = c.dateText self s iso) ∧
    ∀ self : DateTime, defaults.allRaise.dateText self " 9960101".toList false =
      some { self with year := 996, month := 1, day := 1, dateOnly := true } := by
  refine ⟨fun _ _ _ _ => rfl, fun self => ?_⟩
  have h1 : pyInt (slice [' ', '9', '9', '6', '0', '1', '0', '1'] 0 4) = some 996 := by decide +kernel
  have h2 : pyInt (slice [' ', '9', '9', '6', '0', '1', '0', '1'] 4 6) = some 1 := by decide +kernel
  have h3 : pyInt (slice [' ', '9', '9', '6', '0', '1', '0', '1'] 6 8) = some 1 := by decide +kernel
  have hd : DateTime.parseDate false self " 9960101".toList false =
      some ({ self with year := 996, month := 1, day := 1 }, 8) := by
    simp [DateTime.parseDate, DateTime.skipSep, h1, h2, h3]
  show DateTime.parse false self " 9960101".toList false = _
  unfold DateTime.parse
  rw [hd]
  rfl

/-- C124 fails: after `allRaise` a URI with a backslash is neither refused nor read as before: it keeps the
backslash. -/
theorem C124_fails_uri :
    (∀ (c : ParserContext) (s : List Char), c.allRaise.uriText s = some s) ∧
    defaults.uriText "a\\,b".toList = some "a,b".toList := by
  refine ⟨fun _ _ => rfl, by decide +kernel⟩

/-- C124 fails: after `allRaise` no request status whatever is read. -/
theorem C124_fails_status (c : ParserContext) (s : List Char) : c.allRaise.status s = none := by
  unfold ParserContext.status ValueType.readStatus
  split
  · rfl
  · split
    · rfl
    · simp [ParserContext.allRaise]

end PyCal
