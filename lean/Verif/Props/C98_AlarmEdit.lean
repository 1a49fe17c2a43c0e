import Verif.Model.AlarmEdit
import Mathlib.Data.List.Basic

/-! # C98: an alarm and its properties stay together -/

namespace PyCal
namespace Alm

/-! ## Specification -/

/-- `p` is the first of the properties with the key `k`. -/
def FirstIs (k : Key) (ps : Props) (p : P) : Prop :=
  ∃ a b, ps = a ++ p :: b ∧ p.key = k ∧ ∀ q ∈ a, q.key ≠ k

/-- No property with the key `k`. -/
def Absent (k : Key) (ps : Props) : Prop := ∀ p ∈ ps, p.key ≠ k

/-- What an alarm tells its user: what to do, with what; when, at a time or so long from the start (`true`) or
the end; how often again, if at all, and after which time; and its status. -/
structure Told where
  action : Action
  data : Data
  trigger : DateTime ⊕ (Duration × Bool)
  repeats : Option (Int × Duration)
  status : AlarmStatus
deriving DecidableEq

/-- What the methods of the alarm return. -/
def VAlarm.told (v : VAlarm) : Told where
  action := v.action
  data := v.data
  trigger := if v.absolute then .inl v.triggerOn else .inr (v.triggerBy, v.onStart)
  repeats := if v.repeats > 0 then some (v.repeats, v.interval) else none
  status := v.status

/-- The data is of the class for the action, an email alarm has its list of attendees, and the action is one
that has a name. -/
def Fits : Action → Data → Prop
  | .audio, .audio _ => True
  | .display, .display _ => True
  | .email, .email _ _ (some _) => True
  | .procedure, .unknown => True
  | .uri, .uri _ => True
  | .none, .none => True
  | _, _ => False

/-- The calls that keep an alarm and its properties together. -/
def Keeps : Call' → Prop
  | .editAction a d => Fits a d
  | _ => True

/-- The names of the actions. -/
def actionTexts : List (List Char × Action) :=
  [("AUDIO".toList, .audio), ("DISPLAY".toList, .display), ("EMAIL".toList, .email),
   ("PROCEDURE".toList, .procedure), ("URI".toList, .uri), ("NONE".toList, .none)]

/-! ## The dictionary -/

theorem first_iff {k : Key} {ps : Props} {p : P} : first k ps = some p ↔ FirstIs k ps p := by
  unfold first FirstIs
  rw [List.find?_eq_some_iff_append]
  constructor
  · rintro ⟨h, a, b, rfl, hn⟩
    exact ⟨a, b, rfl, by simpa using h, fun q hq => by simpa using hn q hq⟩
  · rintro ⟨a, b, rfl, h, hn⟩
    exact ⟨by simpa using h, a, b, rfl, fun q hq => by simpa using hn q hq⟩

theorem first_none {k : Key} {ps : Props} : first k ps = none ↔ Absent k ps := by
  simp [first, Absent, List.find?_eq_none]

theorem first_remove (k : Key) (ps : Props) : first k (remove k ps) = none := by
  rw [first_none]
  intro p hp
  simpa [remove] using (List.mem_filter.1 hp).2

theorem first_remove_ne {k k' : Key} (h : k ≠ k') (ps : Props) : first k (remove k' ps) = first k ps := by
  unfold first remove
  rw [List.find?_filter]
  congr 1
  funext p
  by_cases hp : p.key = k
  · simp [hp, h]
  · simp [hp]

theorem first_add {ps : Props} (p : P) (h : first p.key ps = none) : first p.key (add p ps) = some p := by
  unfold first add at *
  rw [List.find?_append, h]
  simp

theorem first_add_ne {k : Key} {p : P} (h : k ≠ p.key) (ps : Props) : first k (add p ps) = first k ps := by
  unfold first add
  rw [List.find?_append]
  simp [Ne.symm h]

theorem first_replace (p : P) (ps : Props) : first p.key (add p (remove p.key ps)) = some p :=
  first_add p (first_remove _ _)

theorem first_attendees {k : Key} (h : k ≠ .attendee) (ps : Props) (l : List (List Char)) :
    first k (ps ++ l.map fun a => (⟨.attendee, .address a, none⟩ : P)) = first k ps := by
  unfold first
  rw [List.find?_append]
  have : (l.map fun a => (⟨.attendee, .address a, none⟩ : P)).find? (fun p => p.key = k) = none := by
    simp [List.find?_eq_none, Ne.symm h]
  rw [this]
  simp

theorem attendees_remove_ne {k : Key} (h : k ≠ .attendee) (ps : Props) : attendees (remove k ps) = attendees ps := by
  unfold attendees remove
  rw [List.filterMap_filter]
  congr 1
  funext p
  by_cases hp : p.key = k
  · simp [hp, h]
  · simp [hp]

theorem attendees_remove (ps : Props) : attendees (remove .attendee ps) = [] := by
  unfold attendees remove
  rw [List.filterMap_filter, List.filterMap_eq_nil_iff]
  intro p _
  by_cases hp : p.key = .attendee <;> simp [hp]

theorem attendees_add_ne {p : P} (h : p.key ≠ .attendee) (ps : Props) : attendees (add p ps) = attendees ps := by
  simp [attendees, add, h]

theorem attendees_map (ps : Props) (l : List (List Char)) :
    attendees (ps ++ l.map fun a => (⟨.attendee, .address a, none⟩ : P)) = attendees ps ++ l := by
  unfold attendees
  rw [List.filterMap_append, List.filterMap_map]
  congr 1
  rw [List.filterMap_congr (g := some) fun a _ => by simp]
  exact List.filterMap_some

/-! ## What a new alarm tells -/

/-- The trigger of a new alarm with these properties. -/
def triggerIn (ps : Props) : DateTime ⊕ (Duration × Bool) :=
  match first .trigger ps with
  | some ⟨_, .dateTime t, _⟩ => .inl t
  | some ⟨_, .duration d, some r⟩ => .inr (d, if r = "START".toList then true else if r = "END".toList then false else true)
  | some ⟨_, .duration d, none⟩ => .inr (d, true)
  | _ => .inr (Duration.ofSeconds 3600, true)

theorem trigger_same (v : VAlarm) : v.loadTrigger.action = v.action ∧ v.loadTrigger.data = v.data ∧
    v.loadTrigger.props = v.props ∧ v.loadTrigger.repeats = v.repeats ∧ v.loadTrigger.interval = v.interval ∧
    v.loadTrigger.status = v.status := by
  unfold VAlarm.loadTrigger
  cases first .trigger v.props with
  | none => simp
  | some p =>
    obtain ⟨k, w, r⟩ := p
    cases w <;> simp

theorem trigger_told (v : VAlarm) (h1 : v.absolute = false) (h2 : v.triggerBy = Duration.ofSeconds 3600)
    (h3 : v.onStart = true) : v.loadTrigger.told.trigger = triggerIn v.props := by
  unfold VAlarm.loadTrigger triggerIn VAlarm.told
  cases first .trigger v.props with
  | none => simp [h1, h2, h3]
  | some p =>
    obtain ⟨k, w, r⟩ := p
    cases w <;> cases r <;> simp [h1, h2, h3]

theorem fresh_told (ps : Props) : (VAlarm.fresh ps).told = {
    action := ((loadString .action ps).map actionOf).getD .display
    data := ((loadString .action ps).map fun s => loadAction (actionOf s) ps).getD (.display (some []))
    trigger := triggerIn ps
    repeats := if (loadInt .repeat ps).getD 0 > 0 then
      some ((loadInt .repeat ps).getD 0, (loadDuration .duration ps).getD (Duration.ofSeconds 300)) else none
    status := ((loadString .alarmStatus ps).map statusFrom).getD .pending } := by
  have ht : ∀ v : VAlarm, v.told.trigger = if v.absolute then .inl v.triggerOn else .inr (v.triggerBy, v.onStart) :=
    fun _ => rfl
  unfold VAlarm.fresh VAlarm.finalise
  dsimp only
  cases loadString .action ps with
  | none =>
    obtain ⟨h1, h2, h3, h4, h5, h6⟩ := trigger_same { props := ps }
    have h7 := trigger_told { props := ps } rfl rfl rfl
    rw [ht] at h7
    simp only [VAlarm.told, h1, h2, h3, h4, h5, h6, h7, Option.map_none, Option.getD_none]
  | some s =>
    obtain ⟨h1, h2, h3, h4, h5, h6⟩ := trigger_same
      { props := ps, action := actionOf s, data := loadAction (actionOf s) ps }
    have h7 := trigger_told { props := ps, action := actionOf s, data := loadAction (actionOf s) ps } rfl rfl rfl
    rw [ht] at h7
    simp only [VAlarm.told, h1, h2, h3, h4, h5, h6, h7, Option.map_some, Option.getD_some]

theorem fresh_props (ps : Props) : (VAlarm.fresh ps).props = ps := by
  unfold VAlarm.fresh VAlarm.finalise
  dsimp only
  cases loadString .action ps <;> exact (trigger_same _).2.2.1

/-- Two dictionaries that say the same about one key. -/
theorem load_congr {k : Key} {ps qs : Props} (h : first k ps = first k qs) :
    loadString k ps = loadString k qs ∧ loadInt k ps = loadInt k qs ∧ loadDuration k ps = loadDuration k qs := by
  simp [loadString, loadInt, loadDuration, h]

theorem loadAction_congr {ps qs : Props} (h : ∀ k, k ∈ [Key.speak, .description, .summary, .url] →
    first k ps = first k qs) (ha : attendees ps = attendees qs) (a : Action) : loadAction a ps = loadAction a qs := by
  have h1 := (load_congr (h .speak (by simp))).1
  have h2 := (load_congr (h .description (by simp))).1
  have h3 := (load_congr (h .summary (by simp))).1
  have h4 := (load_congr (h .url (by simp))).1
  cases a <;> simp [loadAction, h1, h2, h3, h4, ha]

theorem statusFrom_text (s : AlarmStatus) : statusFrom (statusText s) = s := by cases s <;> decide +kernel

theorem actionOf_text {a : Action} (h : a ≠ .unknown) : actionOf (actionText a) = a := by
  cases a <;> first | exact absurd rfl h | decide +kernel

/-- The keys that `remove` and `add` of action data leave alone. -/
theorem remove_first (d : Data) (ps : Props) {k : Key}
    (hk : k ∉ [Key.speak, .description, .summary, .attendee, .url]) : first k (d.remove ps) = first k ps := by
  simp only [List.mem_cons, List.not_mem_nil, or_false, not_or] at hk
  obtain ⟨h1, h2, h3, h4, h5⟩ := hk
  cases d <;> simp only [Data.remove, first_remove_ne h1, first_remove_ne h2, first_remove_ne h3, first_remove_ne h4,
    first_remove_ne h5]

theorem add_first (d : Data) (ps : Props) {k : Key}
    (hk : k ∉ [Key.speak, .description, .summary, .attendee, .url]) : first k (d.add ps).2 = first k ps := by
  have hr := remove_first d ps hk
  simp only [List.mem_cons, List.not_mem_nil, or_false, not_or] at hk
  obtain ⟨h1, h2, h3, h4, h5⟩ := hk
  cases d with
  | audio s => simp only [Data.add]; rw [first_add_ne h1]; exact hr
  | display s => simp only [Data.add]; rw [first_add_ne h2]; exact hr
  | email s t att =>
    simp only [Data.add]
    cases att with
    | none => simp only; rw [first_add_ne h3, first_add_ne h2]; exact hr
    | some l => simp only; rw [first_attendees h4, first_add_ne h3, first_add_ne h2]; exact hr
  | uri s => simp only [Data.add]; rw [first_add_ne h5]; exact hr
  | unknown => rfl
  | none => rfl

theorem loadString_val {k : Key} {ps : Props} {s : Option (List Char)} {r : Option (List Char)}
    (h : first k ps = some ⟨k, textVal s, r⟩) : loadString k ps = s := by
  unfold loadString
  rw [h]
  cases s <;> rfl

/-- After `add` the data is loaded again. -/
theorem load_add {a : Action} {d : Data} (h : Fits a d) (ps : Props) : loadAction a (d.add ps).2 = d := by
  cases a <;> cases d <;> simp only [Fits] at h
  · rename_i s
    simp only [loadAction, Data.add, Data.remove]
    rw [loadString_val (first_replace ⟨.speak, textVal s, none⟩ ps)]
  · rename_i s
    simp only [loadAction, Data.add, Data.remove]
    rw [loadString_val (first_replace ⟨.description, textVal s, none⟩ ps)]
  · rename_i s t att
    cases att with
    | none => exact absurd h id
    | some l =>
      simp only [loadAction, Data.add, Data.remove]
      have hd : first .description ((add ⟨.summary, textVal t, none⟩ (add ⟨.description, textVal s, none⟩
          (remove .attendee (remove .summary (remove .description ps))))) ++
          l.map fun a => (⟨.attendee, .address a, none⟩ : P)) = some ⟨.description, textVal s, none⟩ := by
        rw [first_attendees (by simp), first_add_ne (by simp)]
        apply first_add (⟨.description, textVal s, none⟩ : P)
        rw [first_remove_ne (by simp), first_remove_ne (by simp), first_remove]
      have hs : first .summary ((add ⟨.summary, textVal t, none⟩ (add ⟨.description, textVal s, none⟩
          (remove .attendee (remove .summary (remove .description ps))))) ++
          l.map fun a => (⟨.attendee, .address a, none⟩ : P)) = some ⟨.summary, textVal t, none⟩ := by
        rw [first_attendees (by simp)]
        apply first_add (⟨.summary, textVal t, none⟩ : P)
        rw [first_add_ne (by simp), first_remove_ne (by simp), first_remove]
      rw [loadString_val hd, loadString_val hs, attendees_map, attendees_add_ne (by simp), attendees_add_ne (by simp),
        attendees_remove]
      simp
  · rfl
  · rename_i s
    simp only [loadAction, Data.add, Data.remove]
    rw [loadString_val (first_replace ⟨.url, textVal s, none⟩ ps)]
  · rfl

/-! ## Edits -/

/-- An alarm that tells what a new one with its properties would tell. -/
def Together (v : VAlarm) : Prop := v.told = (VAlarm.fresh v.props).told

theorem fresh_together (ps : Props) : Together (VAlarm.fresh ps) := by
  unfold Together
  rw [fresh_props]

theorem triggerIn_congr {ps qs : Props} (h : first .trigger ps = first .trigger qs) : triggerIn ps = triggerIn qs := by
  unfold triggerIn
  rw [h]

/-- What a new alarm tells after a change of a property that is not used for the action. -/
theorem fresh_replace {ps : Props} {qs : Props} (k : List Key)
    (hk : ∀ x ∈ [Key.action, .speak, .description, .summary, .attendee, .url], x ∉ k)
    (h : ∀ x, x ∉ k → first x qs = first x ps) (ha : attendees qs = attendees ps) :
    (VAlarm.fresh qs).told.action = (VAlarm.fresh ps).told.action ∧
    (VAlarm.fresh qs).told.data = (VAlarm.fresh ps).told.data ∧
    (Key.trigger ∉ k → (VAlarm.fresh qs).told.trigger = (VAlarm.fresh ps).told.trigger) ∧
    (Key.repeat ∉ k → Key.duration ∉ k → (VAlarm.fresh qs).told.repeats = (VAlarm.fresh ps).told.repeats) ∧
    (Key.alarmStatus ∉ k → (VAlarm.fresh qs).told.status = (VAlarm.fresh ps).told.status) := by
  have hact := (load_congr (h .action (hk .action (by simp)))).1
  have hl := loadAction_congr (ps := qs) (qs := ps) (fun x hx => h x (hk x (by
    simp only [List.mem_cons, List.not_mem_nil, or_false] at hx ⊢
    rcases hx with rfl | rfl | rfl | rfl <;> simp))) ha
  simp only [fresh_told]
  refine ⟨by rw [hact], by rw [hact]; congr 2; funext s; exact hl _, fun ht => triggerIn_congr (h _ ht), fun h1 h2 => ?_,
    fun h1 => ?_⟩
  · rw [(load_congr (h _ h1)).2.1, (load_congr (h _ h2)).2.2]
  · rw [(load_congr (h _ h1)).1]

theorem Told.ext' {a b : Told} (h1 : a.action = b.action) (h2 : a.data = b.data) (h3 : a.trigger = b.trigger)
    (h4 : a.repeats = b.repeats) (h5 : a.status = b.status) : a = b := by
  cases a; cases b; simp_all

theorem call_together (v : VAlarm) (x : Call') (h : Together v) (hx : Keeps x) : Together (v.call x).2 := by
  unfold Together at h ⊢
  have e1 : v.told.action = (VAlarm.fresh v.props).told.action := by rw [h]
  have e2 : v.told.data = (VAlarm.fresh v.props).told.data := by rw [h]
  have e3 : v.told.trigger = (VAlarm.fresh v.props).told.trigger := by rw [h]
  have e4 : v.told.repeats = (VAlarm.fresh v.props).told.repeats := by rw [h]
  have e5 : v.told.status = (VAlarm.fresh v.props).told.status := by rw [h]
  cases x with
  | editStatus s =>
    simp only [VAlarm.call, VAlarm.editStatus]
    obtain ⟨h1, h2, h3, h4, _⟩ := fresh_replace (ps := v.props)
      (qs := add ⟨.alarmStatus, .text (statusText s), none⟩ (remove .alarmStatus v.props)) [.alarmStatus]
      (by simp) (fun x hx => by
        simp only [List.mem_cons, List.not_mem_nil, or_false] at hx
        rw [first_add_ne hx, first_remove_ne hx])
      (by rw [attendees_add_ne (by simp), attendees_remove_ne (by simp)])
    refine Told.ext' (by rw [h1]; exact e1) (by rw [h2]; exact e2) (by rw [h3 (by simp)]; exact e3)
      (by rw [h4 (by simp) (by simp)]; exact e4) ?_
    rw [fresh_told]
    simp only [VAlarm.told, loadString, first_replace ⟨.alarmStatus, .text (statusText s), none⟩, Option.map_some,
      Option.getD_some, statusFrom_text]
  | editTriggerOn t =>
    simp only [VAlarm.call, VAlarm.editTriggerOn]
    obtain ⟨h1, h2, _, h4, h5⟩ := fresh_replace (ps := v.props)
      (qs := add ⟨.trigger, .dateTime t, none⟩ (remove .trigger v.props)) [.trigger]
      (by simp) (fun x hx => by
        simp only [List.mem_cons, List.not_mem_nil, or_false] at hx
        rw [first_add_ne hx, first_remove_ne hx])
      (by rw [attendees_add_ne (by simp), attendees_remove_ne (by simp)])
    refine Told.ext' (by rw [h1]; exact e1) (by rw [h2]; exact e2) ?_
      (by rw [h4 (by simp) (by simp)]; exact e4) (by rw [h5 (by simp)]; exact e5)
    rw [fresh_told]
    simp only [VAlarm.told, triggerIn, first_replace ⟨.trigger, .dateTime t, none⟩, if_true]
  | editTriggerBy d b =>
    simp only [VAlarm.call, VAlarm.editTriggerBy]
    obtain ⟨h1, h2, _, h4, h5⟩ := fresh_replace (ps := v.props)
      (qs := add ⟨.trigger, .duration d, some (if b then "START".toList else "END".toList)⟩ (remove .trigger v.props))
      [.trigger] (by simp) (fun x hx => by
        simp only [List.mem_cons, List.not_mem_nil, or_false] at hx
        rw [first_add_ne hx, first_remove_ne hx])
      (by rw [attendees_add_ne (by simp), attendees_remove_ne (by simp)])
    refine Told.ext' (by rw [h1]; exact e1) (by rw [h2]; exact e2) ?_
      (by rw [h4 (by simp) (by simp)]; exact e4) (by rw [h5 (by simp)]; exact e5)
    rw [fresh_told]
    simp only [VAlarm.told, triggerIn,
      first_replace ⟨.trigger, .duration d, some (if b then "START".toList else "END".toList)⟩]
    cases b <;> simp
  | editRepeats n i =>
    simp only [VAlarm.call, VAlarm.editRepeats]
    by_cases hn : n > 0
    · simp only [if_pos hn]
      obtain ⟨h1, h2, h3, _, h5⟩ := fresh_replace (ps := v.props)
        (qs := add ⟨.duration, .duration i, none⟩ (add ⟨.repeat, .int n, none⟩
          (remove .duration (remove .repeat v.props)))) [.repeat, .duration]
        (by simp) (fun x hx => by
          simp only [List.mem_cons, List.not_mem_nil, or_false, not_or] at hx
          rw [first_add_ne hx.2, first_add_ne hx.1, first_remove_ne hx.2, first_remove_ne hx.1])
        (by rw [attendees_add_ne (by simp), attendees_add_ne (by simp), attendees_remove_ne (by simp),
          attendees_remove_ne (by simp)])
      refine Told.ext' (by rw [h1]; exact e1) (by rw [h2]; exact e2) (by rw [h3 (by simp)]; exact e3) ?_
        (by rw [h5 (by simp)]; exact e5)
      have hr : first .repeat (add ⟨.duration, .duration i, none⟩ (add ⟨.repeat, .int n, none⟩
          (remove .duration (remove .repeat v.props)))) = some ⟨.repeat, .int n, none⟩ := by
        rw [first_add_ne (by simp)]
        exact first_add ⟨.repeat, .int n, none⟩ (by rw [first_remove_ne (by simp), first_remove])
      have hd : first .duration (add ⟨.duration, .duration i, none⟩ (add ⟨.repeat, .int n, none⟩
          (remove .duration (remove .repeat v.props)))) = some ⟨.duration, .duration i, none⟩ :=
        first_add ⟨.duration, .duration i, none⟩ (by rw [first_add_ne (by simp), first_remove])
      rw [fresh_told]
      simp only [VAlarm.told, loadInt, loadDuration, hr, hd, Option.map_some, Option.getD_some]
    · simp only [if_neg hn]
      obtain ⟨h1, h2, h3, _, h5⟩ := fresh_replace (ps := v.props)
        (qs := remove .duration (remove .repeat v.props)) [.repeat, .duration]
        (by simp) (fun x hx => by
          simp only [List.mem_cons, List.not_mem_nil, or_false, not_or] at hx
          rw [first_remove_ne hx.2, first_remove_ne hx.1])
        (by rw [attendees_remove_ne (by simp), attendees_remove_ne (by simp)])
      refine Told.ext' (by rw [h1]; exact e1) (by rw [h2]; exact e2) (by rw [h3 (by simp)]; exact e3) ?_
        (by rw [h5 (by simp)]; exact e5)
      have hr : first .repeat (remove .duration (remove .repeat v.props)) = none := by
        rw [first_remove_ne (by simp), first_remove]
      rw [fresh_told]
      simp only [VAlarm.told, loadInt, hr, Option.map_none, Option.getD_none]
      simp [hn]
  | editAction a d =>
    have ha : a ≠ .unknown := by
      rintro rfl
      cases d <;> exact hx
    simp only [VAlarm.call, VAlarm.editAction]
    have hf : ∀ k, k ∉ [Key.speak, .description, .summary, .attendee, .url] → k ≠ .action →
        first k (d.add (add ⟨.action, .text (actionText a), none⟩ (v.data.remove (remove .action v.props)))).2 =
          first k v.props := by
      intro k hk hk'
      rw [add_first d _ hk, first_add_ne hk', remove_first _ _ hk, first_remove_ne hk']
    have hact : first .action (d.add (add ⟨.action, .text (actionText a), none⟩
        (v.data.remove (remove .action v.props)))).2 = some ⟨.action, .text (actionText a), none⟩ := by
      rw [add_first d _ (by simp)]
      apply first_add (⟨.action, .text (actionText a), none⟩ : P)
      rw [remove_first _ _ (by simp), first_remove]
    have hs : loadString .action (d.add (add ⟨.action, .text (actionText a), none⟩
        (v.data.remove (remove .action v.props)))).2 = some (actionText a) := by
      simp [loadString, hact]
    rw [fresh_told] at e3 e4 e5 ⊢
    refine Told.ext' ?_ ?_ ?_ ?_ ?_
    · simp only [VAlarm.told, hs, Option.map_some, Option.getD_some, actionOf_text ha]
    · simp only [VAlarm.told, hs, Option.map_some, Option.getD_some, actionOf_text ha, load_add hx]
    · refine e3.trans ?_
      exact triggerIn_congr (hf _ (by simp) (by simp)).symm
    · refine e4.trans ?_
      simp only [(load_congr (hf .repeat (by simp) (by simp))).2.1, (load_congr (hf .duration (by simp) (by simp))).2.2]
    · refine e5.trans ?_
      simp only [(load_congr (hf .alarmStatus (by simp) (by simp))).1]

/-- C98 (partial): after loading and any sequence of edits, an alarm tells what a new alarm with the same properties
would tell, if the data of each new action is of its class and the action has a name.

Missing: actions without a name, `C98_fails_unknown`. -/
theorem C98_edits_partial (ps : Props) (xs : List Call') (h : ∀ x ∈ xs, Keeps x) :
    ((VAlarm.fresh ps).calls xs).told = (VAlarm.fresh ((VAlarm.fresh ps).calls xs).props).told := by
  have : ∀ (xs : List Call') (v : VAlarm), Together v → (∀ x ∈ xs, Keeps x) → Together (v.calls xs) := by
    intro xs
    induction xs with
    | nil => intro v h _; exact h
    | cons x xs ih =>
      intro v hv hx
      exact ih _ (call_together v x hv (hx x (by simp))) fun y hy => hx y (by simp [hy])
  exact this xs _ (fresh_together ps) h

/-- What each call sets; it leaves alone what it does not name. -/
theorem C98_set (v : VAlarm) :
    (∀ s, (v.call (.editStatus s)).2.told = { v.told with status := s }) ∧
    (∀ a d, (v.call (.editAction a d)).2.told = { v.told with action := a, data := d }) ∧
    (∀ t, (v.call (.editTriggerOn t)).2.told = { v.told with trigger := .inl t }) ∧
    (∀ d b, (v.call (.editTriggerBy d b)).2.told = { v.told with trigger := .inr (d, b) }) ∧
    ∀ n i, (v.call (.editRepeats n i)).2.told =
      { v.told with repeats := if 0 < n then some (n, i) else none } := by
  refine ⟨fun s => rfl, fun a d => rfl, fun t => ?_, fun d b => ?_, fun n i => rfl⟩
  · simp [VAlarm.call, VAlarm.editTriggerOn, VAlarm.told]
  · simp [VAlarm.call, VAlarm.editTriggerBy, VAlarm.told]

/-- The properties that a call can change. -/
def Writes (v : VAlarm) : Call' → Key → Prop
  | .editStatus _, k => k = .alarmStatus
  | .editTriggerOn _, k => k = .trigger
  | .editTriggerBy _ _, k => k = .trigger
  | .editRepeats _ _, k => k = .repeat ∨ k = .duration
  | .editAction _ d, k => k = .action ∨ OfData v.data k ∨ OfData d k
where
  /-- The properties of the data of an action. -/
  OfData : Data → Key → Prop
    | .audio _, k => k = .speak
    | .display _, k => k = .description
    | .email .., k => k = .description ∨ k = .summary ∨ k = .attendee
    | .uri _, k => k = .url
    | .unknown, _ => False
    | .none, _ => False

theorem filter_remove {k k' : Key} (h : k ≠ k') (ps : Props) :
    (remove k' ps).filter (fun p => p.key = k) = ps.filter fun p => p.key = k := by
  unfold remove
  rw [List.filter_filter]
  congr 1
  funext p
  by_cases hp : p.key = k
  · simp [hp, h]
  · simp [hp]

theorem filter_add {k : Key} {p : P} (h : k ≠ p.key) (ps : Props) :
    (add p ps).filter (fun p => p.key = k) = ps.filter fun p => p.key = k := by
  unfold add
  rw [List.filter_append]
  simp [Ne.symm h]

theorem filter_dataRemove {d : Data} {k : Key} (h : ¬ Writes.OfData d k) (ps : Props) :
    (d.remove ps).filter (fun p => p.key = k) = ps.filter fun p => p.key = k := by
  cases d with
  | audio s => exact filter_remove h ps
  | display s => exact filter_remove h ps
  | email s t att =>
    simp only [Writes.OfData, not_or] at h
    simp only [Data.remove, filter_remove h.1, filter_remove h.2.1, filter_remove h.2.2]
  | uri s => exact filter_remove h ps
  | unknown => rfl
  | none => rfl

theorem filter_dataAdd {d : Data} {k : Key} (h : ¬ Writes.OfData d k) (ps : Props) :
    (d.add ps).2.filter (fun p => p.key = k) = ps.filter fun p => p.key = k := by
  have hr := filter_dataRemove h ps
  cases d with
  | audio s => exact (filter_add (by exact h) _).trans hr
  | display s => exact (filter_add (by exact h) _).trans hr
  | email s t att =>
    simp only [Writes.OfData, not_or] at h
    cases att with
    | none => exact ((filter_add h.2.1 _).trans (filter_add h.1 _)).trans hr
    | some l =>
      simp only [Data.add, List.filter_append]
      have : (l.map fun a => (⟨.attendee, .address a, none⟩ : P)).filter (fun p => p.key = k) = [] := by
        simp [Ne.symm h.2.2]
      rw [this, List.append_nil]
      exact ((filter_add h.2.1 _).trans (filter_add h.1 _)).trans hr
  | uri s => exact (filter_add (by exact h) _).trans hr
  | unknown => rfl
  | none => rfl

/-- The properties of all other names are left as they are. -/
theorem C98_others (v : VAlarm) (x : Call') (k : Key) (h : ¬ Writes v x k) :
    (v.call x).2.props.filter (fun p => p.key = k) = v.props.filter fun p => p.key = k := by
  cases x with
  | editStatus s =>
    exact (filter_add (by exact h) _).trans (filter_remove h _)
  | editTriggerOn t => exact (filter_add (by exact h) _).trans (filter_remove h _)
  | editTriggerBy d b => exact (filter_add (by exact h) _).trans (filter_remove h _)
  | editRepeats n i =>
    simp only [Writes, not_or] at h
    simp only [VAlarm.call, VAlarm.editRepeats]
    split
    · rw [filter_add (by exact h.2), filter_add (by exact h.1), filter_remove h.2, filter_remove h.1]
    · rw [filter_remove h.2, filter_remove h.1]
  | editAction a d =>
    simp only [Writes, not_or] at h
    simp only [VAlarm.call, VAlarm.editAction]
    rw [filter_dataAdd h.2.2, filter_add (by exact h.1), filter_dataRemove h.2.1, filter_remove h.1]

theorem actionOf_eq (s : List Char) : actionOf s = (actionTexts.lookup s).getD .unknown := by
  unfold actionOf actionTexts
  repeat' split
  all_goals first
    | (subst_vars; decide +kernel)
    | (rename_i h1 h2 h3 h4 h5 h6
       have e : ∀ t : List Char, s ≠ t → (s == t) = false := fun t ht => by simpa using ht
       simp only [List.lookup, e _ h1, e _ h2, e _ h3, e _ h4, e _ h5, e _ h6, Option.getD_none])

/-- What a new alarm tells: the action of the first ACTION and its data, the trigger of the first TRIGGER, from the start
if not said otherwise, the repetitions of REPEAT and DURATION. -/
theorem C98_loaded (ps : Props) :
    (∀ s r, FirstIs .action ps ⟨.action, .text s, r⟩ →
      (VAlarm.fresh ps).told.action = (actionTexts.lookup s).getD .unknown) ∧
    (∀ s r r', FirstIs .action ps ⟨.action, .text "DISPLAY".toList, r⟩ →
      FirstIs .description ps ⟨.description, .text s, r'⟩ → (VAlarm.fresh ps).told.data = .display (some s)) ∧
    (∀ t r, FirstIs .trigger ps ⟨.trigger, .dateTime t, r⟩ → (VAlarm.fresh ps).told.trigger = .inl t) ∧
    (∀ d, FirstIs .trigger ps ⟨.trigger, .duration d, none⟩ → (VAlarm.fresh ps).told.trigger = .inr (d, true)) ∧
    (∀ d, FirstIs .trigger ps ⟨.trigger, .duration d, some "START".toList⟩ →
      (VAlarm.fresh ps).told.trigger = .inr (d, true)) ∧
    (∀ d, FirstIs .trigger ps ⟨.trigger, .duration d, some "END".toList⟩ →
      (VAlarm.fresh ps).told.trigger = .inr (d, false)) ∧
    (∀ n i r r', 0 < n → FirstIs .repeat ps ⟨.repeat, .int n, r⟩ → FirstIs .duration ps ⟨.duration, .duration i, r'⟩ →
      (VAlarm.fresh ps).told.repeats = some (n, i)) ∧
    (Absent .repeat ps → (VAlarm.fresh ps).told.repeats = none) ∧
    (Absent .alarmStatus ps → (VAlarm.fresh ps).told.status = .pending) := by
  refine ⟨?_, ?_, ?_, ?_, ?_, ?_, ?_, ?_, ?_⟩
  · intro s r h
    rw [fresh_told]
    simp [loadString, first_iff.2 h, actionOf_eq]
  · intro s r r' h h'
    rw [fresh_told]
    simp only [loadString, first_iff.2 h, Option.map_some, Option.getD_some, actionOf_eq]
    have : (actionTexts.lookup "DISPLAY".toList).getD .unknown = .display := by decide +kernel
    simp only [this, loadAction, loadString, first_iff.2 h', Option.map_some]
  · intro t r h
    rw [fresh_told]
    simp only [triggerIn, first_iff.2 h]
  · intro d h
    rw [fresh_told]
    simp only [triggerIn, first_iff.2 h]
  · intro d h
    rw [fresh_told]
    simp only [triggerIn, first_iff.2 h, if_true]
  · intro d h
    rw [fresh_told]
    simp only [triggerIn, first_iff.2 h]
    rw [if_neg (by decide), if_pos trivial]
  · intro n i r r' hn h h'
    rw [fresh_told]
    simp [loadInt, loadDuration, first_iff.2 h, first_iff.2 h', hn]
  · intro h
    rw [fresh_told]
    simp [loadInt, first_none.2 h]
  · intro h
    rw [fresh_told]
    simp [loadString, first_none.2 h]

/-- What a new alarm tells of the text of its action, which may be an address as well: of AUDIO the first SPEAK, of
DISPLAY the first DESCRIPTION, of URI the first URL, of EMAIL the first DESCRIPTION and the first SUMMARY.  Words are spoken
just if there are any. -/
theorem C98_data (ps : Props) (s t : List Char) (r r' r'' : Option (List Char)) (x y : Val)
    (hx : x = .text s ∨ x = .address s) (hy : y = .text t ∨ y = .address t) :
    (FirstIs .action ps ⟨.action, .text "AUDIO".toList, r⟩ → FirstIs .speak ps ⟨.speak, x, r'⟩ →
      (VAlarm.fresh ps).told.data = .audio (some s) ∧
      (VAlarm.fresh ps).data.isSpeakText = some (decide (s ≠ []))) ∧
    (FirstIs .action ps ⟨.action, .text "DISPLAY".toList, r⟩ → FirstIs .description ps ⟨.description, x, r'⟩ →
      (VAlarm.fresh ps).told.data = .display (some s)) ∧
    (FirstIs .action ps ⟨.action, .text "URI".toList, r⟩ → FirstIs .url ps ⟨.url, x, r'⟩ →
      (VAlarm.fresh ps).told.data = .uri (some s)) ∧
    (FirstIs .action ps ⟨.action, .text "EMAIL".toList, r⟩ → FirstIs .description ps ⟨.description, x, r'⟩ →
      FirstIs .summary ps ⟨.summary, y, r''⟩ → ∃ l, (VAlarm.fresh ps).told.data = .email (some s) (some t) l) := by
  have hd : (VAlarm.fresh ps).data = (VAlarm.fresh ps).told.data := rfl
  have e1 : (actionTexts.lookup "AUDIO".toList).getD .unknown = .audio := by decide +kernel
  have e2 : (actionTexts.lookup "DISPLAY".toList).getD .unknown = .display := by decide +kernel
  have e3 : (actionTexts.lookup "URI".toList).getD .unknown = .uri := by decide +kernel
  have e4 : (actionTexts.lookup "EMAIL".toList).getD .unknown = .email := by decide +kernel
  rw [hd]
  refine ⟨?_, ?_, ?_, ?_⟩
  · intro h h'
    have e : (VAlarm.fresh ps).told.data = .audio (some s) := by
      rw [fresh_told]
      simp only [loadString, first_iff.2 h, Option.map_some, Option.getD_some, actionOf_eq, e1, loadAction,
        first_iff.2 h']
      rcases hx with rfl | rfl <;> rfl
    refine ⟨e, ?_⟩
    rw [e]
    cases s <;> simp [Data.isSpeakText]
  · intro h h'
    rw [fresh_told]
    simp only [loadString, first_iff.2 h, Option.map_some, Option.getD_some, actionOf_eq, e2, loadAction,
      first_iff.2 h']
    rcases hx with rfl | rfl <;> rfl
  · intro h h'
    rw [fresh_told]
    simp only [loadString, first_iff.2 h, Option.map_some, Option.getD_some, actionOf_eq, e3, loadAction,
      first_iff.2 h']
    rcases hx with rfl | rfl <;> rfl
  · intro h h' h''
    refine ⟨some (attendees ps), ?_⟩
    rw [fresh_told]
    simp only [loadString, first_iff.2 h, Option.map_some, Option.getD_some, actionOf_eq, e4, loadAction,
      first_iff.2 h', first_iff.2 h'']
    rcases hx with rfl | rfl <;> rcases hy with rfl | rfl <;> rfl

example : FirstIs .action [⟨.action, .text "URI".toList, none⟩, ⟨.url, .address "http://x/".toList, none⟩]
      ⟨.action, .text "URI".toList, none⟩ ∧
    FirstIs .url [⟨.action, .text "URI".toList, none⟩, ⟨.url, .address "http://x/".toList, none⟩]
      ⟨.url, .address "http://x/".toList, none⟩ :=
  ⟨first_iff.1 (by decide), first_iff.1 (by decide)⟩

/-- Loading again after the properties changed: a trigger that does not say where it counts from counts from the start,
and one that says neither START nor END counts from where the last one did. -/
theorem C98_trigger (v : VAlarm) (d : Duration) :
    (FirstIs .trigger v.props ⟨.trigger, .duration d, none⟩ → v.finalise.told.trigger = .inr (d, true)) ∧
    (FirstIs .trigger v.props ⟨.trigger, .duration d, some "START".toList⟩ → v.finalise.told.trigger = .inr (d, true)) ∧
    (FirstIs .trigger v.props ⟨.trigger, .duration d, some "END".toList⟩ → v.finalise.told.trigger = .inr (d, false)) ∧
    (∀ r, r ≠ "START".toList → r ≠ "END".toList → FirstIs .trigger v.props ⟨.trigger, .duration d, some r⟩ →
      v.finalise.told.trigger = .inr (d, v.onStart)) := by
  have key : ∀ r, FirstIs .trigger v.props ⟨.trigger, .duration d, r⟩ → v.finalise.told.trigger =
      .inr (d, match r with
        | some r => if r = "START".toList then true else if r = "END".toList then false else v.onStart
        | none => true) := by
    intro r h
    have h := first_iff.2 h
    unfold VAlarm.finalise VAlarm.loadTrigger
    cases loadString .action v.props <;> simp [h, VAlarm.told] <;> rfl
  refine ⟨fun h => key _ h, fun h => key _ h, fun h => key _ h, fun r h1 h2 h => ?_⟩
  rw [key _ h]
  simp only [if_neg h1, if_neg h2]

/-- The data of an email alarm: the texts, and all attendees in order. -/
theorem C98_email (ps : Props) (r : Option (List Char)) (h : FirstIs .action ps ⟨.action, .text "EMAIL".toList, r⟩)
    (l : List (List Char)) (hl : (ps.filter fun p => p.key = .attendee).map P.val = l.map Val.address) :
    ∃ s t, (VAlarm.fresh ps).told.data = .email s t (some l) := by
  refine ⟨loadString .description ps, loadString .summary ps, ?_⟩
  rw [fresh_told]
  have : (actionTexts.lookup "EMAIL".toList).getD .unknown = .email := by decide +kernel
  have hs : loadString .action ps = some "EMAIL".toList := by simp [loadString, first_iff.2 h]
  rw [hs]
  simp only [Option.map_some, Option.getD_some, actionOf_eq, this, loadAction]
  have ha : attendees ps = l := by
    have e : attendees ps = ((ps.filter fun p => p.key = .attendee).map P.val).filterMap
        fun v => match v with | .address s => some s | _ => none := by
      unfold attendees
      rw [List.filterMap_map, List.filterMap_filter]
      congr 1
      funext p
      by_cases hp : p.key = .attendee
      · simp only [hp, if_true, decide_true, Function.comp]
        cases p.val <;> rfl
      · simp [hp]
    rw [e, hl, List.filterMap_map]
    exact (List.filterMap_congr fun a _ => rfl).trans List.filterMap_some
  rw [ha]

/-- C98 (partial): a duplicate, if there is one, tells the same and has the same properties.

Missing: alarms that cannot be duplicated, `C98_fails_duplicate`. -/
theorem C98_duplicate_partial (v : VAlarm) (h : ∀ p ∈ v.props, p.val ≠ .none) :
    ∃ w, v.duplicate = some w ∧ w.told = v.told ∧ w.props = v.props := by
  refine ⟨{ v with mapKey := none }, ?_, rfl, rfl⟩
  unfold VAlarm.duplicate
  rw [if_neg]
  simpa using h

/-! ## Examples -/

/-- An email alarm as it is read. -/
def emailProps : Props :=
  [⟨.action, .text "EMAIL".toList, none⟩, ⟨.trigger, .duration (Duration.ofSeconds (-900)), some "END".toList⟩,
   ⟨.description, .text "Call".toList, none⟩, ⟨.summary, .text "S".toList, none⟩,
   ⟨.attendee, .address "mailto:a@b".toList, none⟩, ⟨.attendee, .address "mailto:c@d".toList, none⟩,
   ⟨.repeat, .int 2, none⟩, ⟨.duration, .duration (Duration.ofSeconds 60), none⟩]

example : (VAlarm.fresh emailProps).told = ⟨.email, .email (some "Call".toList) (some "S".toList)
    (some ["mailto:a@b".toList, "mailto:c@d".toList]), .inr (Duration.ofSeconds (-900), false),
    some (2, Duration.ofSeconds 60), .pending⟩ := by decide +kernel

example : ∀ x ∈ [Call'.editAction .display (.display (some "x".toList)), .editTriggerBy (Duration.ofSeconds (-60)) true,
    .editRepeats 0 (Duration.ofSeconds 60), .editStatus .disabled], Keeps x := by
  simp [Keeps, Fits]

/-! ## Where it is not so -/

/-- An action without a name is written as another one. -/
theorem C98_fails_unknown (v : VAlarm) : (v.call (.editAction .unknown .unknown)).2.told.action = .unknown ∧
    (VAlarm.fresh (v.call (.editAction .unknown .unknown)).2.props).told.action = .procedure := by
  refine ⟨rfl, ?_⟩
  have hact : first .action (v.call (.editAction .unknown .unknown)).2.props =
      some ⟨.action, .text (actionText .unknown), none⟩ := by
    have hp : (v.call (.editAction .unknown .unknown)).2.props =
        add ⟨.action, .text (actionText .unknown), none⟩ (v.data.remove (remove .action v.props)) := rfl
    rw [hp]
    apply first_add (⟨.action, .text (actionText .unknown), none⟩ : P)
    rw [remove_first _ _ (by simp), first_remove]
  have e : loadString .action (v.call (.editAction .unknown .unknown)).2.props = some (actionText .unknown) := by
    unfold loadString; rw [hact]; rfl
  rw [fresh_told, e]
  have : actionOf (actionText .unknown) = .procedure := by decide +kernel
  simp only [Option.map_some, Option.getD_some, this]

/-- The names of actions are taken as they are, so that `display` is none. -/
theorem C98_fails_case : (VAlarm.fresh [⟨.action, .text "display".toList, none⟩,
    ⟨.description, .text "x".toList, none⟩]).told.action = .unknown := by decide +kernel

/-- So is RELATED: `end` is the start. -/
theorem C98_fails_related (d : Duration) :
    (VAlarm.fresh [⟨.trigger, .duration d, some "end".toList⟩]).told.trigger = .inr (d, true) := by
  rw [fresh_told]
  simp [triggerIn, first]

/-- The data of an email alarm made without attendees raises, after the alarm has lost its old action. -/
theorem C98_fails_attendees (v : VAlarm) (s t : Option (List Char)) :
    (v.call (.editAction .email (.email s t none))).1 = false ∧
    (v.call (.editAction .email (.email s t none))).2.told.action = .email := ⟨rfl, rfl⟩

/-- The interval of an alarm that does not repeat is not kept. -/
theorem C98_fails_interval (v : VAlarm) (i : Duration) :
    (v.call (.editRepeats 0 i)).2.interval = i ∧
    (VAlarm.fresh (v.call (.editRepeats 0 i)).2.props).interval = Duration.ofSeconds 300 := by
  refine ⟨rfl, ?_⟩
  have hp : (v.call (.editRepeats 0 i)).2.props = remove .duration (remove .repeat v.props) := rfl
  have hd : loadDuration .duration (remove .duration (remove .repeat v.props)) = none := by
    simp [loadDuration, first_remove]
  rw [hp]
  unfold VAlarm.fresh VAlarm.finalise
  dsimp only
  cases loadString .action (remove .duration (remove .repeat v.props)) <;>
    simp only [(trigger_same _).2.2.1, (trigger_same _).2.2.2.2.1, hd, Option.getD_none]

/-- An audio alarm without a text to be spoken cannot say so. -/
theorem C98_fails_speak (ps : Props) (r : Option (List Char))
    (h : FirstIs .action ps ⟨.action, .text "AUDIO".toList, r⟩) (hs : Absent .speak ps) :
    (VAlarm.fresh ps).data.isSpeakText = none := by
  have e : (VAlarm.fresh ps).data = (VAlarm.fresh ps).told.data := rfl
  rw [e, fresh_told]
  have : actionOf "AUDIO".toList = .audio := by decide +kernel
  simp only [loadString, first_iff.2 h, Option.map_some, Option.getD_some, this, loadAction, first_none.2 hs,
    Option.map_none, Data.isSpeakText]

/-- The key of an alarm, by which alarms are sorted when they are written, is not changed by edits. -/
theorem C98_fails_key (v : VAlarm) (xs : List Call') : (v.calls xs).mapKey = v.mapKey := by
  induction xs generalizing v with
  | nil => rfl
  | cons x xs ih =>
    rw [VAlarm.calls, ih]
    cases x <;> rfl

example : ((VAlarm.fresh emailProps).call (.editTriggerBy (Duration.ofSeconds (-60)) true)).2.mapKey =
      some "2:-PT15M".toList ∧
    (VAlarm.fresh ((VAlarm.fresh emailProps).call (.editTriggerBy (Duration.ofSeconds (-60)) true)).2.props).mapKey =
      some "2:-PT1M".toList := by decide +kernel

/-- A display alarm edited without a description cannot be duplicated. -/
theorem C98_fails_duplicate (v : VAlarm) :
    (v.call (.editAction .display (.display none))).2.duplicate = none := by
  unfold VAlarm.duplicate
  rw [if_pos]
  simp [VAlarm.call, VAlarm.editAction, Data.add, add, textVal]

end Alm
end PyCal
