import Verif.Spec.ContentLine
import Verif.Props.C46_Lines

/-!
# C131: a line that the standards allow is read as what it says
-/

namespace PyCal
open PropText Spec

namespace L131
open Line46

theorem name_token {s : List Char} (h : Name s) : Token s := by
  refine ⟨h.1, fun c hc hm => ?_⟩
  have := h.2 c hc
  simp only [List.mem_cons, List.not_mem_nil, or_false] at hm
  rcases hm with rfl | rfl | rfl | rfl | rfl | rfl | rfl <;> revert this <;> decide

theorem decode_quote (t : List Char) : ∀ a : List Char,
    rfc6868Decode (a ++ '"' :: t) = rfc6868Decode a ++ '"' :: rfc6868Decode t := by
  intro a
  induction a using rfc6868Decode.induct with
  | case1 s ih => simp only [List.cons_append, rfc6868Decode, ih]
  | case2 s ih => simp only [List.cons_append, rfc6868Decode, ih]
  | case3 s ih => simp only [List.cons_append, rfc6868Decode, ih]
  | case4 c s h1 h2 h3 ih =>
    have e1 : rfc6868Decode (c :: s) = c :: rfc6868Decode s := by
      rw [rfc6868Decode.eq_def]
      split <;> simp_all
    have e2 : rfc6868Decode (c :: (s ++ '"' :: t)) = c :: rfc6868Decode (s ++ '"' :: t) := by
      rw [rfc6868Decode.eq_def]
      cases s <;> split <;> simp_all
    rw [List.cons_append, e1, e2, ih, List.cons_append]
  | case5 => simp [rfc6868Decode]

theorem decode_space (s : List Char) : rfc6868Decode (' ' :: s) = ' ' :: rfc6868Decode s := by
  rw [rfc6868Decode.eq_def]
  split
  · simp_all
  · simp_all
  · simp_all
  · rename_i heq
    simp only [List.cons.injEq] at heq
    rw [← heq.1, heq.2]
  · simp_all

theorem decode_head {s : List Char} (h : s.head? ≠ some ' ') : (rfc6868Decode s).head? ≠ some ' ' := by
  rw [rfc6868Decode.eq_def]
  split <;> simp_all

/-- What a value in a line gives: itself, if it can be read, and otherwise nothing that means the same. -/
theorem token_shown {v : Shown} (hv : v.Allowed) {d : Char} (hd : d ∈ [':', ';', ',']) (r : List Char) :
    (v.Readable → dupToken (v.text ++ d :: r) [':', ';', ','] = some (some v.inner, d :: r)) ∧
    (∀ w t, dupToken (v.text ++ d :: r) [':', ';', ','] = some (some w, t) → decodeParam w = rfc6868Decode v.inner →
      v.Readable) := by
  have hd1 : d ≠ ' ' := by rintro rfl; simp at hd
  have hd2 : d ≠ '"' := by rintro rfl; simp at hd
  have hd3 : isSpace d = false := by
    simp only [List.mem_cons, List.not_mem_nil, or_false] at hd
    rcases hd with rfl | rfl | rfl <;> decide
  cases v with
  | plain s =>
    have hs : ∀ c ∈ s, c ∉ [':', ';', ','] := fun c hc hm => (hv c hc).2 (by simp at hm ⊢; tauto)
    have hq : '"' ∉ s := fun hc => (hv _ hc).2 (by simp)
    constructor
    · intro h
      exact dupToken_token hd hd1 hd2 hs h hq
    · intro w t h he hsp
      simp only [Shown.text, Shown.inner] at h he
      cases s with
      | nil => simp at hsp
      | cons c s =>
        simp only [List.head?_cons, Option.some.injEq] at hsp
        subst hsp
        simp only [List.cons_append, dupToken, if_true] at h
        rw [List.dropWhile_cons_of_pos (by decide), dropWhile_stop isSpace hd3] at h
        have hsub : ∀ c ∈ s.dropWhile isSpace, c ∈ s := fun c hc => (List.dropWhile_suffix _).subset hc
        have hw : w = s.dropWhile isSpace := by
          split at h
          · simp_all
          · rename_i rest heq
            exfalso
            cases hw : s.dropWhile isSpace with
            | nil => rw [hw] at heq; simp at heq; exact hd2 heq.1
            | cons a b =>
              rw [hw] at heq
              simp only [List.cons_append, List.cons.injEq] at heq
              have := hsub a (by rw [hw]; simp)
              rw [heq.1] at this
              exact hq (List.mem_cons_of_mem _ this)
          · simp only [Option.some.injEq, Prod.mk.injEq] at h
            rw [← h.1, List.takeWhile_append_of_pos]
            · rw [List.takeWhile_cons_of_neg (by simp only [decide_eq_true_eq, not_not]; exact hd), List.append_nil]
            · intro c hc
              simp only [decide_eq_true_eq]
              exact hs c (List.mem_cons_of_mem _ (hsub c hc))
        have hh : w.head? ≠ some ' ' := by
          rw [hw]
          intro hh
          have hp := List.head?_dropWhile_not isSpace s
          rw [hh] at hp
          exact absurd hp (by decide)
        rw [C21_decode_rfc, decode_space] at he
        exact decode_head hh (by rw [he]; rfl)
  | quoted s =>
    have hq : '"' ∉ s := fun hc => (hv _ hc).2 rfl
    have hsc := scanQuoted_append hq (d :: r) false
    have ht : (Shown.quoted s).text ++ d :: r = '"' :: (s ++ '"' :: d :: r) := by simp [Shown.text]
    rw [ht]
    simp only [dupToken, Shown.inner, Shown.Readable]
    rw [if_neg (by decide)]
    rw [escState_trailing] at hsc
    constructor
    · intro h
      rw [if_neg (by simp; omega)] at hsc
      simp only [hsc]
    · intro w t h he
      by_contra hodd
      rw [if_pos (by simp; omega)] at hsc
      simp only [hsc] at h
      cases hs : scanQuoted false (d :: r) with
      | none => rw [hs] at h; simp at h
      | some x =>
        rw [hs] at h
        simp only [Option.map_some, Option.some.injEq, Prod.mk.injEq] at h
        rw [← h.1, C21_decode_rfc, decode_quote] at he
        have := congrArg List.length he
        simp at this

/-- The values after the first. -/
theorem values_shown {vs : List Shown} (hv : ∀ v ∈ vs, v.Allowed) {d : Char} (hd : d ∈ [':', ';']) (r : List Char) :
    ((∀ v ∈ vs, v.Readable) → parseValues ((vs.flatMap fun v => ',' :: v.text) ++ d :: r) =
      some (vs.map fun v => rfc6868Decode v.inner, d :: r)) ∧
    (∀ t, parseValues ((vs.flatMap fun v => ',' :: v.text) ++ d :: r) =
      some (vs.map fun v => rfc6868Decode v.inner, t) → (∀ v ∈ vs, v.Readable) ∧ t = d :: r) := by
  have hdc : d ≠ ',' := by rintro rfl; simp at hd
  have hd' : d ∈ [':', ';', ','] := by simp at hd ⊢; tauto
  induction vs with
  | nil =>
    rw [List.flatMap_nil, List.nil_append, parseValues.eq_def]
    simp [hdc, eq_comm]
  | cons v vs ih =>
    obtain ⟨i1, i2⟩ := ih fun w hw => hv w (List.mem_cons_of_mem _ hw)
    have hrest : ∃ d' ∈ [':', ';', ','], ∃ r', (vs.flatMap fun v => ',' :: v.text) ++ d :: r = d' :: r' := by
      cases vs with
      | nil => exact ⟨d, hd', r, rfl⟩
      | cons w vs => exact ⟨',', by simp, _, by simp only [List.flatMap_cons, List.cons_append]; rfl⟩
    obtain ⟨d1, hd1, r1, hr1⟩ := hrest
    obtain ⟨t1, t2⟩ := token_shown (hv v (by simp)) hd1 r1
    have hform : ((v :: vs).flatMap fun v => ',' :: v.text) ++ d :: r = ',' :: (v.text ++ d1 :: r1) := by
      rw [← hr1]; simp
    rw [hform, parseValues.eq_def]
    simp only [if_true]
    constructor
    · intro hr
      have e := t1 (hr v (by simp))
      split
      · rename_i w t' hw
        rw [e] at hw
        simp only [Option.some.injEq, Prod.mk.injEq] at hw
        obtain ⟨rfl, rfl⟩ := hw
        rw [← hr1, i1 fun w hw => hr w (List.mem_cons_of_mem _ hw)]
        simp [C21_decode_rfc]
      · rename_i hno
        exact absurd e (hno _ _)
    · intro t h
      split at h
      · rename_i w t' hw
        simp only [Option.map_eq_some_iff, Prod.mk.injEq, List.map_cons, List.cons.injEq] at h
        obtain ⟨⟨l, t''⟩, h1, ⟨h2, h3⟩, h4⟩ := h
        simp only at h2 h3 h4
        have hr := t2 w t' hw h2
        have e := t1 hr
        rw [hw] at e
        simp only [Option.some.injEq, Prod.mk.injEq] at e
        rw [e.2, ← hr1, h3, h4] at h1
        have := i2 t h1
        exact ⟨fun x hx => by
          rcases List.mem_cons.1 hx with rfl | hx
          · exact hr
          · exact this.1 x hx, this.2⟩
      · cases h

/-- A parameter. -/
theorem param_shown {vcard : Bool} {cfg : Config} {p : ShownParam} (hn : Name p.name) {d : Char}
    {r : List Char} : parseParam vcard cfg (p.text ++ d :: r) =
      match dupToken (p.first.text ++ ((p.more.flatMap fun v => ',' :: v.text) ++ d :: r)) [':', ';', ','] with
      | some (some v, t) => some ((p.name, some (decodeParam v)), t, false)
      | _ => none := by
  have hform : p.text ++ d :: r =
      p.name ++ '=' :: (p.first.text ++ ((p.more.flatMap fun v => ',' :: v.text) ++ d :: r)) := by
    simp [ShownParam.text]
  rw [hform, parseParam, token_dup (name_token hn) (by simp) (by simp), token_dup (name_token hn) (by simp) (by simp)]
  cases vcard <;> rfl

theorem params_shown {vcard : Bool} {cfg : Config} {ps : List ShownParam}
    (hp : ∀ p ∈ ps, Name p.name ∧ ∀ v ∈ p.values, v.Allowed) (value : List Char) :
    parseParams vcard cfg false ((ps.flatMap fun p => ';' :: p.text) ++ ':' :: value) =
      .ok (ps.map ShownParam.meaning, some value) ↔ ∀ p ∈ ps, ∀ v ∈ p.values, v.Readable := by
  induction ps with
  | nil =>
    rw [parseParams.eq_def]
    simp
  | cons p ps ih =>
    have ih' := ih fun q hq => hp q (List.mem_cons_of_mem _ hq)
    obtain ⟨hn, hv⟩ := hp p (by simp)
    have hd : ∃ d ∈ [':', ';'], ∃ r, (ps.flatMap fun p => ';' :: p.text) ++ ':' :: value = d :: r := by
      cases ps with
      | nil => exact ⟨':', by simp, value, by simp⟩
      | cons q ps => exact ⟨';', by simp, _, by simp only [List.flatMap_cons, List.cons_append]; rfl⟩
    obtain ⟨d, hd, r, hr⟩ := hd
    have hrest : ∃ d' ∈ [':', ';', ','], ∃ r', (p.more.flatMap fun v => ',' :: v.text) ++ d :: r = d' :: r' := by
      cases p.more with
      | nil => exact ⟨d, by simp at hd ⊢; tauto, r, rfl⟩
      | cons w vs => exact ⟨',', by simp, _, by simp only [List.flatMap_cons, List.cons_append]; rfl⟩
    obtain ⟨d1, hd1, r1, hr1⟩ := hrest
    obtain ⟨t1, t2⟩ := token_shown (hv p.first (by simp [ShownParam.values])) hd1 r1
    obtain ⟨v1, v2⟩ := values_shown (vs := p.more)
      (fun v h => hv v (by simp [ShownParam.values, h])) hd r
    have hpar := param_shown (vcard := vcard) (cfg := cfg) hn (d := d) (r := r)
    rw [hr1] at hpar v1 v2
    rw [parseParams.eq_def]
    simp only [List.flatMap_cons, List.cons_append, List.append_assoc, hr, if_true]
    rw [hr] at ih'
    constructor
    · intro h
      split at h
      · cases h
      · rename_i name v t s hs
        rw [hpar] at hs
        split at hs
        · rename_i w t' hw
          simp only [Option.some.injEq, Prod.mk.injEq] at hs
          obtain ⟨⟨rfl, rfl⟩, rfl, rfl⟩ := hs
          split at h
          · cases h
          · rename_i vs t3 hvs
            split at h
            · rename_i qs val hq
              simp only [Parse.ok.injEq, Prod.mk.injEq, List.map_cons, List.cons.injEq, ShownParam.meaning,
                Param.mk.injEq, true_and, ShownParam.values, Option.toList_some, List.cons_append,
                List.nil_append] at h
              obtain ⟨⟨⟨h1, h2⟩, h3⟩, rfl⟩ := h
              have hr0 := t2 w _ hw h1
              have e := t1 hr0
              rw [hw] at e
              simp only [Option.some.injEq, Prod.mk.injEq] at e
              rw [e.2, h2] at hvs
              obtain ⟨g1, rfl⟩ := v2 t3 hvs
              rw [Bool.or_self, h3] at hq
              have := ih'.1 hq
              intro q hq' x hx
              rcases List.mem_cons.1 hq' with rfl | hq'
              · rcases List.mem_cons.1 hx with rfl | hx
                · exact hr0
                · exact g1 x hx
              · exact this q hq' x hx
            · cases h
            · cases h
        · cases hs
    · intro h
      have e := t1 (h p (by simp) p.first (by simp [ShownParam.values]))
      rw [e] at hpar
      simp only at hpar
      have ev := v1 fun v hv' => h p (by simp) v (by simp [ShownParam.values, hv'])
      split
      · rename_i hno
        rw [hpar] at hno
        cases hno
      · rename_i name v t s hs
        rw [hpar] at hs
        simp only [Option.some.injEq, Prod.mk.injEq] at hs
        obtain ⟨⟨rfl, rfl⟩, rfl, rfl⟩ := hs
        split
        · rename_i hno
          rw [ev] at hno
          cases hno
        · rename_i vs t3 hvs
          rw [ev] at hvs
          simp only [Option.some.injEq, Prod.mk.injEq] at hvs
          obtain ⟨rfl, rfl⟩ := hvs
          rw [Bool.or_self, ih'.2 fun q hq => h q (List.mem_cons_of_mem _ hq)]
          simp [ShownParam.meaning, ShownParam.values, C21_decode_rfc]

end L131
open L131 Line46

/-- C131, exactly: a line that the standards allow, of a calendar or of a card, is read as what it says (group, name,
parameters with all their values in order, value) just if each value of a parameter is `Readable`: without quotes it does
not begin with a space, in quotes it does not end in an odd number of backslashes. -/
theorem C131_exact (vcard : Bool) (cfg : Config) (l : ContentLine) (hl : l.Allowed vcard) :
    parseText vcard cfg l.text = .ok (l.group, l.name, l.params.map ShownParam.meaning, some l.value) ↔
      ∀ p ∈ l.params, ∀ v ∈ p.values, v.Readable := by
  obtain ⟨group, name, params, value⟩ := l
  obtain ⟨hn, hg, hp⟩ := hl
  simp only at hn hg hp ⊢
  have hps := params_shown (vcard := vcard) (cfg := cfg) hp value
  rw [← hps]
  have hd : ∃ d ∈ [';', ':'], ∃ r, (params.flatMap fun p => ';' :: p.text) ++ ':' :: value = d :: r := by
    cases params with
    | nil => exact ⟨':', by simp, value, by simp⟩
    | cons q ps => exact ⟨';', by simp, _, by simp only [List.flatMap_cons, List.cons_append]; rfl⟩
  obtain ⟨d, hd, r, hr⟩ := hd
  have hn := name_token hn
  have hdot : ∀ {s}, Token s → '.' ∉ s := fun h hm => by simpa using h.2 _ hm
  have key : ∀ (f : List Char) (g : Option (List Char)) (n : List Char), f ≠ [] →
      dupToken (f ++ d :: r) [';', ':'] = some (some f, d :: r) →
      (if vcard then splitGroup f else (none, f)) = (g, n) →
      (parseText vcard cfg (f ++ d :: r) = .ok (g, n, params.map ShownParam.meaning, some value) ↔
        parseParams vcard cfg false (d :: r) = .ok (params.map ShownParam.meaning, some value)) := by
    intro f g n hf h1 h2
    simp only [parseText, h1, if_neg hf, h2]
    cases parseParams vcard cfg false (d :: r) with
    | ok x => obtain ⟨a, b⟩ := x; simp
    | invalid => simp
    | hang => simp
  rw [hr]
  cases group with
  | none =>
    have e : ContentLine.text ⟨none, name, params, value⟩ = name ++ d :: r := by
      simp [ContentLine.text, ← hr]
    rw [e]
    exact key name none name hn.1 (token_dup hn hd (by simp) r) (by simp [splitGroup, hdot hn])
  | some g =>
    obtain ⟨rfl, hg'⟩ := hg g rfl
    have hg := name_token hg'
    have e : ContentLine.text ⟨some g, name, params, value⟩ = (g ++ '.' :: name) ++ d :: r := by
      simp [ContentLine.text, ← hr]
    rw [e]
    refine key (g ++ '.' :: name) (some g) name (by simp) ?_ ?_
    · apply dupToken_token hd
      · rintro rfl; simp at hd
      · rintro rfl; simp at hd
      · intro c hc
        rw [List.mem_append, List.mem_cons] at hc
        rcases hc with hc | rfl | hc
        · have := hg.2 c hc; simp at this ⊢; tauto
        · decide
        · have := hn.2 c hc; simp at this ⊢; tauto
      · cases g with
        | nil => exact absurd rfl hg.1
        | cons c g =>
          have := hg.2 c (by simp)
          simp at this ⊢
          tauto
      · intro hc
        rw [List.mem_append, List.mem_cons] at hc
        rcases hc with hc | hc | hc
        · have := hg.2 _ hc; simp at this
        · simp at hc
        · have := hn.2 _ hc; simp at this
    · have hp : ∀ c ∈ g, decide (c ≠ '.') = true := by
        intro c hc
        simp only [decide_eq_true_eq]
        rintro rfl
        exact hdot hg hc
      simp only [if_true, splitGroup]
      rw [if_pos (by simp), List.takeWhile_append_of_pos hp, List.dropWhile_append_of_pos hp]
      simp

/-- C131 (partial): a line that the standards allow is read as what it says.

Needed: no value of a parameter without quotes begins with a space, `C131_fails_space`, none in quotes ends in an odd
number of backslashes, `C131_fails_backslash`. -/
theorem C131_read_partial (vcard : Bool) (cfg : Config) (l : ContentLine) (hl : l.Allowed vcard)
    (hv : ∀ p ∈ l.params, ∀ v ∈ p.values, v.Readable) :
    parseText vcard cfg l.text = .ok (l.group, l.name, l.params.map ShownParam.meaning, some l.value) :=
  (C131_exact vcard cfg l hl).2 hv

/-- C131 fails: a value without quotes that begins with a space, which the standards allow, never keeps the space. -/
theorem C131_fails_space (vcard : Bool) (cfg : Config) (l : ContentLine) (hl : l.Allowed vcard) (p : ShownParam)
    (hp : p ∈ l.params) (s : List Char) (hs : Shown.plain (' ' :: s) ∈ p.values) :
    parseText vcard cfg l.text ≠ .ok (l.group, l.name, l.params.map ShownParam.meaning, some l.value) := by
  intro h
  exact (C131_exact vcard cfg l hl).1 h p hp _ hs rfl

/-- C131 fails: a backslash at the end of a quoted value, where it stands for itself, never leaves the line as it is; here
the line cannot be read, or the value has parts of what follows. -/
theorem C131_fails_backslash (vcard : Bool) (cfg : Config) :
    (∀ (l : ContentLine) (_ : l.Allowed vcard) (p : ShownParam) (_ : p ∈ l.params) (s : List Char)
      (_ : Shown.quoted s ∈ p.values) (_ : trailingBackslashes s % 2 = 1),
      parseText vcard cfg l.text ≠ .ok (l.group, l.name, l.params.map ShownParam.meaning, some l.value)) ∧
    parseText false {} "ATTENDEE;CN=\"C:\\\":mailto:a".toList = .invalid ∧
    parseText false {} "X-A;B=\"C:\\\";D=\"e\":f:g".toList ≠
      .ok (none, "X-A".toList, [⟨"B".toList, ["C:\\".toList]⟩, ⟨"D".toList, ["e".toList]⟩], some "f:g".toList) := by
  refine ⟨fun l hl p hp s hs ho h => ?_, by decide +kernel, by decide +kernel⟩
  have := (C131_exact vcard cfg l hl).1 h p hp _ hs
  simp only [Shown.Readable] at this
  omega

/-- A line with a group, quoted and other values, an empty one and an encoded one. -/
example : let l : ContentLine := ⟨some "item1".toList, "X-a".toList,
      [⟨"TYPE".toList, .plain "home".toList, [.quoted "a,b;c:d".toList, .plain []]⟩,
        ⟨"x-n".toList, .plain "one^ntwo".toList, []⟩], "a;b:\"c\"".toList⟩
    l.text = "item1.X-a;TYPE=home,\"a,b;c:d\",;x-n=one^ntwo:a;b:\"c\"".toList ∧
      (∀ p ∈ l.params, ∀ v ∈ p.values, v.Readable) ∧
      parseText true {} l.text = .ok (some "item1".toList, "X-a".toList,
        [⟨"TYPE".toList, ["home".toList, "a,b;c:d".toList, []]⟩, ⟨"x-n".toList, ["one\ntwo".toList]⟩],
        some "a;b:\"c\"".toList) := by decide +kernel

/-- It is allowed. -/
example : ContentLine.Allowed ⟨some "item1".toList, "X-a".toList,
      [⟨"TYPE".toList, .plain "home".toList, [.quoted "a,b;c:d".toList, .plain []]⟩,
        ⟨"x-n".toList, .plain "one^ntwo".toList, []⟩], "a;b:\"c\"".toList⟩ true := by
  refine ⟨⟨by decide, by decide +kernel⟩, ?_, ?_⟩
  · intro g hg
    obtain rfl := Option.some.inj hg
    exact ⟨rfl, by decide, by decide +kernel⟩
  · intro p hp
    simp only [List.mem_cons, List.not_mem_nil, or_false] at hp
    rcases hp with rfl | rfl
    · refine ⟨⟨by decide, by decide +kernel⟩, fun v hv => ?_⟩
      simp only [ShownParam.values, List.mem_cons, List.not_mem_nil, or_false] at hv
      rcases hv with rfl | rfl | rfl <;> unfold Shown.Allowed <;> decide +kernel
    · refine ⟨⟨by decide, by decide +kernel⟩, fun v hv => ?_⟩
      simp only [ShownParam.values, List.mem_cons, List.not_mem_nil, or_false] at hv
      rcases hv with rfl
      unfold Shown.Allowed
      decide +kernel

end PyCal
