import Mathlib.Data.List.Perm.Basic
import Verif.Props.C40_Nesting
import Verif.Props.C42_Order

/-!
# C41: a component tree that is written and read
-/

namespace PyCal
open Cont Spec

namespace Tree41

theorem body_props {env : Env} {top : Bool} {t : List Char} {ls : List (List Char)} {ps : List CProp}
    {ss : List Component} (h : Body env top t ls ps ss) (qs : List CProp)
    (hq : ∀ p ∈ qs, ReadBack env p) (hv : top = true → ∀ p ∈ qs, env.valid p = true) :
    Body env top t (qs.map CProp.text ++ ls) (qs ++ ps) ss := by
  induction qs with
  | nil => exact h
  | cons q qs ih =>
    obtain ⟨h1, h2, h3, h4⟩ := hq q (by simp)
    exact .prop h1 h2 h3 h4 (fun ht => hv ht q (by simp))
      (ih (fun p hp => hq p (List.mem_cons_of_mem _ hp))
        fun ht p hp => hv ht p (List.mem_cons_of_mem _ hp))

theorem generateAll_some {o : Order} : ∀ {cs : List Component},
    (∀ c ∈ cs, ∃ ls, generate o c = some ls) → ∃ subs, generateAll o cs = some subs ∧
      ∀ i (h : i < cs.length), generate o cs[i] = some (subs.getD i []) := by
  intro cs
  induction cs with
  | nil => intro _; exact ⟨[], by rw [generateAll], by simp⟩
  | cons c cs ih =>
    intro h
    obtain ⟨ls, hls⟩ := h c (by simp)
    obtain ⟨lss, hlss, hi⟩ := ih fun d hd => h d (List.mem_cons_of_mem _ hd)
    refine ⟨ls :: lss, by rw [generateAll, hls, hlss], ?_⟩
    intro i hlt
    cases i with
    | zero => simpa using hls
    | succ i =>
      have := hi i (by simpa using hlt)
      simpa using this

theorem mem_tag {cs : List Component} {x : Tagged} (h : x ∈ tag cs) :
    ∃ hi : x.1 < cs.length, cs[x.1] = x.2 := by
  unfold tag at h
  obtain ⟨y, hy, rfl⟩ := List.mem_map.mp h
  have := List.mem_zipIdx hy
  simp only [Nat.zero_le, Nat.zero_add, Nat.sub_zero, true_and] at this
  exact ⟨this.1, this.2.symm⟩

/-- What is written for a component can be read where it is, as that component. -/
def Good (env : Env) (o : Order) (c : Component) : Prop :=
  ∃ body ps' ss' ss'', generate o c = some (("BEGIN:".toList ++ c.type) ::
      (body ++ ["END:".toList ++ c.type])) ∧ Body env false c.type body ps' ss' ∧
    env.finalise (.mk c.type ps' ss') = some (.mk c.type ps' ss'') ∧ Same c (.mk c.type ps' ss'')

theorem body_comps {env : Env} {o : Order} {top : Bool} {t : List Char} {cs : List Component}
    {subs : List (List (List Char))} (hg : ∀ c ∈ cs, Good env o c)
    (ha : ∀ c ∈ cs, Takes t c.type) (hw : ∀ c ∈ cs, Writable env c)
    (hs : ∀ i (h : i < cs.length), generate o cs[i] = some (subs.getD i [])) (l : List Tagged)
    (hl : ∀ x ∈ l, x ∈ tag cs) :
    ∃ ss, Body env top t (l.flatMap fun x => subs.getD x.1 []) [] ss ∧
      List.Forall₂ Same (l.map Prod.snd) ss := by
  induction l with
  | nil => exact ⟨[], .nil, by simp⟩
  | cons x l ih =>
    obtain ⟨ss, h1, h2⟩ := ih fun y hy => hl y (List.mem_cons_of_mem _ hy)
    obtain ⟨hi, hx⟩ := mem_tag (hl x (by simp))
    have hm : x.2 ∈ cs := hx ▸ List.getElem_mem hi
    obtain ⟨body, ps', ss', ss'', g1, g2, g3, g4⟩ := hg _ hm
    have hgen := hs _ hi
    rw [hx, g1] at hgen
    refine ⟨.mk x.2.type ps' ss'' :: ss, ?_, List.Forall₂.cons g4 h2⟩
    rw [List.flatMap_cons, ← Option.some.inj hgen]
    have := hw _ hm
    cases hc : x.2 with
    | mk t' qs ds =>
      rw [hc] at this g2 g3
      cases this with
      | mk hcont hu _ _ _ =>
        have := Body.comp (top := top) (t := t) t' hcont hu g3 (by
          have := ha _ hm
          rwa [hc] at this) g2 h1
        simpa [Component.type] using this

theorem forall₂_perm {R : Component → Component → Prop} {l cs cs' : List Component}
    (h : List.Forall₂ R l cs) (hp : cs'.Perm cs) : ∃ l', l'.Perm l ∧ List.Forall₂ R l' cs' := by
  have := List.perm_comp_forall₂ hp (List.Forall₂.flip h)
  obtain ⟨l', h1, h2⟩ := this
  exact ⟨l', h2, List.Forall₂.flip h1⟩

/-- `finalise` of a component only changes the order of the components in it. -/
def Sorts (env : Env) : Prop := ∀ t ps cs, ∃ cs', env.finalise (.mk t ps cs) = some (.mk t ps cs') ∧
  cs'.Perm cs

theorem write {env : Env} {o : Order} (heq : ∀ a b, o.eq a b = true → a.type = b.type)
    {top : Bool} {t : List Char} {ps : List CProp} {cs : List Component}
    (hp : ∀ p ∈ ps, ReadBack env p) (hv : top = true → ∀ p ∈ ps, env.valid p = true)
    (hg : ∀ c ∈ cs, Good env o c)
    (ha : ∀ c ∈ cs, Takes t c.type) (hw : ∀ c ∈ cs, Writable env c) :
    ∃ body ss l, generate o (.mk t ps cs) =
        some (("BEGIN:".toList ++ t) :: (body ++ ["END:".toList ++ t])) ∧
      Body env top t body (writtenProps (o.keyOrder t) ps) ss ∧ l.Perm cs ∧ List.Forall₂ Same l ss := by
  obtain ⟨subs, h1, h2⟩ := generateAll_some (o := o) (cs := cs) fun c hc => by
    obtain ⟨_, _, _, _, h, _⟩ := hg c hc
    exact ⟨_, h⟩
  obtain ⟨l, hl, hperm⟩ := Ord42.sortedTagged_perm heq t (cs := tag cs) (by
    rw [Ord42.tag_fst]; exact List.nodup_range)
  obtain ⟨ss, hb, hf⟩ := body_comps (top := top) (t := t) hg ha hw h2 l fun x hx => hperm.subset hx
  have hpp := C42_properties (o.keyOrder t) ps
  have := body_props hb (writtenProps (o.keyOrder t) ps) (fun p h => hp p (hpp.subset h))
    fun ht p h => hv ht p (hpp.subset h)
  rw [List.append_nil] at this
  refine ⟨_, ss, l.map Prod.snd, ?_, this, ?_, hf⟩
  · rw [generate, h1, hl]
  · have := hperm.map Prod.snd
    rwa [Ord42.tag_snd] at this

theorem good {env : Env} {o : Order} (heq : ∀ a b, o.eq a b = true → a.type = b.type)
    (hf : Sorts env) {c : Component} (h : Writable env c) : Good env o c := by
  induction h with
  | @mk t ps cs hc hu hp ha hs ih =>
    obtain ⟨body, ss, l, h1, h2, h3, h4⟩ := write (top := false) heq hp (by simp) ih ha hs
    obtain ⟨ss'', h5, h6⟩ := hf t (writtenProps (o.keyOrder t) ps) ss
    obtain ⟨l', h7, h8⟩ := forall₂_perm h4 h6
    exact ⟨body, _, ss, ss'', h1, h2, h5, .mk (C42_same_name _ _) (h7.trans h3) h8⟩

end Tree41
open Tree41

/-- C41: what is written for a container is accepted, and is the same container but for the order in
which properties and components are written.  Missing: components that are not `Writable`
(`C41_fails_container`, `C41_fails_end`, `C41_fails_unknown`); of properties, that the line is read back,
which is C46; that the lines are folded and unfolded, which is C22. -/
theorem C41_roundtrip_partial (env : Env) (o : Order)
    (heq : ∀ a b, o.eq a b = true → a.type = b.type) (hn : env.nested = true) (hf : Sorts env)
    (ps : List CProp) (cs : List Component) (hp : ∀ p ∈ ps, ReadBack env p ∧ env.valid p = true)
    (hv : ∃ p ∈ ps, p.key = "VERSION".toList)
    (hc : ∀ c ∈ cs, Writable env c ∧ Takes env.container c.type) :
    ∃ ls c', generate o (.mk env.container ps cs) = some ls ∧ parse env ls = .ok (some c') ∧
      Same (.mk env.container ps cs) c' := by
  obtain ⟨body, ss, l, h1, h2, h3, h4⟩ := write (top := true) (t := env.container) heq
    (fun p h => (hp p h).1) (fun _ p h => (hp p h).2) (fun c h => good heq hf (hc c h).1)
    (fun c h => (hc c h).2) (fun c h => (hc c h).1)
  refine ⟨_, _, h1, ?_, .mk (C42_same_name (o.keyOrder env.container) ps) h3 h4⟩
  have hpp := C42_properties (o.keyOrder env.container) ps
  have := C40_complete env hn [] [] body _ ss (by simp [Blank]) (by simp [Blank]) (by simp) h2 (by
    obtain ⟨p, h, hk⟩ := hv
    exact ⟨p, hpp.symm.subset h, hk⟩)
  simpa using this

namespace Tree41

theorem same_type {a b : Component} (h : Same a b) : a.type = b.type := by
  cases h; rfl

theorem same_subs {a b : Component} (h : Same a b) : ∀ d ∈ b.subs, ∃ c ∈ a.subs, c.type = d.type := by
  cases h with
  | @mk t ps ps' cs l cs' h1 h2 h3 =>
    intro d hd
    have : ∀ {l cs' : List Component}, List.Forall₂ Same l cs' → ∀ d ∈ cs', ∃ c ∈ l, c.type = d.type := by
      intro l cs' h
      induction h with
      | nil => simp
      | cons h _ ih =>
        intro d hd
        rcases List.mem_cons.mp hd with rfl | hd
        · exact ⟨_, by simp, same_type h⟩
        · obtain ⟨c, h1, h2⟩ := ih d hd
          exact ⟨c, by simp [h1], h2⟩
    obtain ⟨c, hc, ht⟩ := this h3 d hd
    exact ⟨c, h2.subset hc, ht⟩

end Tree41

/-- C41 (partial), of `Calendar`: the same for `Calendar.parse`, if there is no component whose type differs from VTIMEZONE in
case.  Missing: as in `C41_roundtrip_partial`; such components (`C41_fails_zone`). -/
theorem C41_calendar_partial (env : Env) (o : Order)
    (heq : ∀ a b, o.eq a b = true → a.type = b.type) (hn : env.nested = true) (hf : Sorts env)
    (ps : List CProp) (cs : List Component) (hp : ∀ p ∈ ps, ReadBack env p ∧ env.valid p = true)
    (hv : ∃ p ∈ ps, p.key = "VERSION".toList)
    (hc : ∀ c ∈ cs, Writable env c ∧ Takes env.container c.type)
    (hz : ∀ c ∈ cs, PropText.upper c.type = "VTIMEZONE".toList → c.type = "VTIMEZONE".toList) :
    ∃ ls c', generate o (.mk env.container ps cs) = some ls ∧ parseCalendar env ls = .ok (some c') ∧
      Same (.mk env.container ps cs) c' := by
  obtain ⟨ls, c', h1, h2, h3⟩ := C41_roundtrip_partial env o heq hn hf ps cs hp hv hc
  refine ⟨ls, c', h1, (C40_calendar env ls c').mpr ⟨h2, fun d hd hu => ?_⟩, h3⟩
  obtain ⟨c, hc, ht⟩ := same_subs h3 d hd
  rw [← ht] at hu ⊢
  exact hz c hc hu

/-! ## A case, and the conditions -/

namespace Tree41

/-- Properties in the order of their names, components in the order in which they are. -/
def plain : Order where
  keyOrder := fun _ => []
  names := fun _ => ["VTIMEZONE".toList]
  sortSubs := fun _ => false
  whole := fun _ => false
  eq := fun a b => decide (a = b)
  sortKey := fun _ => []
  wholeLe := fun _ _ => true

def prop (name text : String) : CProp := ⟨name.toList, text.toList⟩

def zone : Component := .mk "VTIMEZONE".toList [prop "TZID" "TZID:a"] []

def tree : List Component :=
  [.mk "VEVENT".toList [prop "UID" "UID:1", prop "DTSTART" "DTSTART:20260101T000000Z"]
    [.mk "VALARM".toList [prop "ACTION" "ACTION:AUDIO"] []], zone]

theorem sorts_calendar : Sorts calendarEnv := fun _ _ cs => ⟨cs, rfl, List.Perm.refl _⟩

theorem readBack_of {name text : String} (h : (prop name text).text ≠ [] ∧
    ¬ Begins (prop name text).text ∧ ¬ Ends (prop name text).text ∧
    readProp (prop name text).text = some (prop name text)) : ReadBack calendarEnv (prop name text) := h

end Tree41

/-- The conditions hold for a calendar with an event with an alarm, and a time zone that is written
first. -/
example : (∀ p ∈ [Nest40.version], ReadBack calendarEnv p ∧ calendarEnv.valid p = true) ∧
    (∀ c ∈ tree, Writable calendarEnv c ∧ Takes calendarEnv.container c.type) ∧
    generate plain (.mk "VCALENDAR".toList [Nest40.version] tree) = some (Nest40.doc
      ["BEGIN:VCALENDAR", "VERSION:2.0", "BEGIN:VTIMEZONE", "TZID:a", "END:VTIMEZONE",
       "BEGIN:VEVENT", "DTSTART:20260101T000000Z", "UID:1", "BEGIN:VALARM", "ACTION:AUDIO", "END:VALARM",
       "END:VEVENT", "END:VCALENDAR"]) := by
  refine ⟨?_, ?_, by decide +kernel⟩
  · intro p hp
    simp only [List.mem_singleton] at hp
    subst hp
    exact ⟨⟨by decide, by decide, by decide, by decide +kernel⟩, by decide +kernel⟩
  · intro c hc
    simp only [tree, List.mem_cons, List.not_mem_nil, or_false] at hc
    rcases hc with rfl | rfl
    · refine ⟨.mk (by decide) (by decide) ?_ (by decide) ?_, by decide⟩
      · intro p hp
        simp only [List.mem_cons, List.not_mem_nil, or_false] at hp
        rcases hp with rfl | rfl
        · exact readBack_of ⟨by decide, by decide, by decide, by decide +kernel⟩
        · exact readBack_of ⟨by decide, by decide, by decide, by decide +kernel⟩
      · intro c hc
        simp only [List.mem_cons, List.not_mem_nil, or_false] at hc
        subst hc
        refine .mk (by decide) (by decide) ?_ (by simp) (by simp)
        intro p hp
        simp only [List.mem_cons, List.not_mem_nil, or_false] at hp
        subst hp
        exact readBack_of ⟨by decide, by decide, by decide, by decide +kernel⟩
    · refine ⟨.mk (by decide) (by decide) ?_ (by simp) (by simp), by decide⟩
      intro p hp
      simp only [List.mem_cons, List.not_mem_nil, or_false] at hp
      subst hp
      exact readBack_of ⟨by decide, by decide, by decide, by decide +kernel⟩

/-- C41 fails: a component with the container's type in the container; it is lost when read, and its
properties are not those of the container. -/
theorem C41_fails_container :
    ∃ ls, generate plain (.mk "VCALENDAR".toList [Nest40.version]
        [.mk "VCALENDAR".toList [prop "UID" "UID:1"] []]) = some ls ∧
      parse calendarEnv ls = .error .invalidData :=
  ⟨Nest40.doc ["BEGIN:VCALENDAR", "VERSION:2.0", "BEGIN:VCALENDAR", "UID:1", "END:VCALENDAR",
    "END:VCALENDAR"], by decide +kernel, by decide +kernel⟩

/-- C41 fails: a property called `BEGIN` or `END`. -/
theorem C41_fails_end :
    ∃ ls, generate plain (.mk "VCALENDAR".toList [Nest40.version]
        [.mk "VEVENT".toList [prop "END" "END:VEVENT", prop "UID" "UID:1"] []]) = some ls ∧
      parse calendarEnv ls = .ok (some (.mk "VCALENDAR".toList
        [Nest40.version, prop "UID" "UID:1", prop "END" "END:VEVENT"] [.mk "VEVENT".toList [] []])) :=
  ⟨Nest40.doc ["BEGIN:VCALENDAR", "VERSION:2.0", "BEGIN:VEVENT", "END:VEVENT", "UID:1", "END:VEVENT",
    "END:VCALENDAR"], by decide +kernel, by decide +kernel⟩

/-- C41 fails: a component of the type `UNKNOWN`. -/
theorem C41_fails_unknown :
    ∃ ls, generate plain (.mk "VCALENDAR".toList [Nest40.version] [.mk "UNKNOWN".toList [] []]) =
        some ls ∧
      parse calendarEnv ls = .ok (some (.mk "VCALENDAR".toList [Nest40.version] [])) :=
  ⟨Nest40.doc ["BEGIN:VCALENDAR", "VERSION:2.0", "BEGIN:UNKNOWN", "END:UNKNOWN", "END:VCALENDAR"],
    by decide +kernel, by decide +kernel⟩

/-- C41 fails: a component whose type is VTIMEZONE in small letters is written, but `Calendar.parse` raises. -/
theorem C41_fails_zone :
    ∃ ls, generate plain (.mk "VCALENDAR".toList [Nest40.version] [.mk "vtimezone".toList [prop "TZID" "TZID:a"] []]) = some ls ∧
      parseCalendar calendarEnv ls = .error .attributeError :=
  ⟨Nest40.doc ["BEGIN:VCALENDAR", "VERSION:2.0", "BEGIN:vtimezone", "TZID:a", "END:vtimezone", "END:VCALENDAR"],
    by decide +kernel, by decide +kernel⟩

end PyCal
