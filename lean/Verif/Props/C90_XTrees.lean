import Verif.Props.C86_TreeJSON
import Verif.Props.C89_XCal

/-!
# C90: component trees in xCal
-/

namespace PyCal
open Cont Spec
open XCal

namespace X90

theorem all_some {write : CProp → Option Xml} {o : Order} : ∀ {cs : List Component},
    (∀ c ∈ cs, ∃ x, compElem write o c = some x) → ∃ subs, compElems write o cs = some subs := by
  intro cs
  induction cs with
  | nil => intro _; exact ⟨[], by rw [compElems]⟩
  | cons c cs ih =>
    intro h
    obtain ⟨j, hj⟩ := h c (by simp)
    obtain ⟨js, hjs⟩ := ih fun d hd => h d (List.mem_cons_of_mem _ hd)
    exact ⟨j :: js, by rw [compElems, hj, hjs]⟩

theorem all_get {write : CProp → Option Xml} {o : Order} : ∀ {cs : List Component}
    {subs : List Xml}, compElems write o cs = some subs →
      ∀ i (h : i < cs.length), ∃ j, subs[i]? = some j ∧ compElem write o cs[i] = some j := by
  intro cs
  induction cs with
  | nil => intro subs _ i h; simp at h
  | cons c cs ih =>
    intro subs h i hi
    rw [compElems] at h
    split at h
    · rename_i j js hj hjs
      cases h
      cases i with
      | zero => exact ⟨j, rfl, hj⟩
      | succ i =>
        obtain ⟨k, h1, h2⟩ := ih hjs i (by simpa using hi)
        exact ⟨k, by simpa using h1, by simpa using h2⟩
    · cases h

theorem written_subs {write : CProp → Option Xml} {o : Order} {cs : List Component}
    {subs : List Xml} (h : compElems write o cs = some subs) (l : List Tagged)
    (hl : ∀ x ∈ l, x ∈ tag cs) :
    List.Forall₂ (fun c j => compElem write o c = some j) (l.map Prod.snd)
      (l.filterMap fun x => subs[x.1]?) := by
  induction l with
  | nil => exact .nil
  | cons x l ih =>
    obtain ⟨hi, hx⟩ := Tree41.mem_tag (hl x (by simp))
    obtain ⟨j, h1, h2⟩ := all_get h _ hi
    rw [List.filterMap_cons, h1, List.map_cons, ← hx]
    exact .cons h2 (ih fun y hy => hl y (List.mem_cons_of_mem _ hy))

/-- What `writeXML` gives. -/
theorem write_form {write : CProp → Option Xml} {o : Order}
    (heq : ∀ a b, o.eq a b = true → a.type = b.type) {t : List Char} {ps : List CProp}
    {cs : List Component} {x : Xml} (h : compElem write o (.mk t ps cs) = some x) :
    ∃ xs l subs, x = .elem (PropJSON.lower t) .none (propertiesElem xs :: componentsElem cs subs) ∧
      (writtenProps (o.keyOrder t) ps).mapM write = some xs ∧ l.Perm cs ∧
      List.Forall₂ (fun c j => compElem write o c = some j) l subs := by
  rw [compElem] at h
  split at h
  · rename_i js subs l h1 h2 h3
    cases h
    obtain ⟨l', h4, h5⟩ := Ord42.sortedTagged_perm heq t (cs := tag cs) (by
      rw [Ord42.tag_fst]; exact List.nodup_range)
    rw [h3] at h4
    cases h4
    refine ⟨js, l.map Prod.snd, _, rfl, h1, ?_, written_subs h2 l fun x hx => h5.subset hx⟩
    have := h5.map Prod.snd
    rwa [Ord42.tag_snd] at this
  · cases h

/-- A property that is somewhere in a component. -/
inductive Within (p : CProp) : Component → Prop
  | here {t ps cs} : p ∈ ps → Within p (.mk t ps cs)
  | sub {t ps cs c} : c ∈ cs → Within p c → Within p (.mk t ps cs)

theorem mapM_all {α β : Type} {f : α → Option β} {l : List α} (h : ∀ a ∈ l, ∃ b, f a = some b) :
    ∃ l', l.mapM f = some l' := by
  induction l with
  | nil => exact ⟨[], rfl⟩
  | cons a l ih =>
    obtain ⟨b, hb⟩ := h a (by simp)
    obtain ⟨bs, hbs⟩ := ih fun c hc => h c (List.mem_cons_of_mem _ hc)
    exact ⟨b :: bs, by rw [List.mapM_cons, hb, hbs]; rfl⟩

end X90
open X90

/-- C90 (partial): what is written for a component has the form of RFC 6321, and every property and
component is in it once.  Missing: that it is written (`C90_all`, `C90_fails_raises`). -/
theorem C90_written_partial (write : CProp → Option Xml) (o : Order)
    (heq : ∀ a b, o.eq a b = true → a.type = b.type) (c : Component) :
    ∀ x, compElem write o c = some x → Spec.XCal.TreeForm (fun p x => write p = some x) c x := by
  induction c using Component.rec' with
  | h t ps cs ih =>
    intro x h
    obtain ⟨xs, l, subs, rfl, h1, h2, h3⟩ := X90.write_form heq h
    refine .mk (C42_properties _ _) (TJ.mapM_forall₂ h1) h2
      (TJ.forall₂_imp_mem h3 fun a ha b hb => ih a (h2.subset ha) b hb) ?_
    unfold componentsElem
    cases cs <;> simp

/-- C90: a component is written if and only if all properties in it and in its components are. -/
theorem C90_all (write : CProp → Option Xml) (o : Order)
    (heq : ∀ a b, o.eq a b = true → a.type = b.type) (c : Component) :
    (∃ x, compElem write o c = some x) ↔ ∀ p, Within p c → ∃ x, write p = some x := by
  induction c using Component.rec' with
  | h t ps cs ih =>
    constructor
    · rintro ⟨x, hx⟩ p hp
      obtain ⟨xs, l, subs, -, h1, h2, h3⟩ := X90.write_form heq hx
      cases hp with
      | here hp =>
        have := TJ.mapM_forall₂ h1
        have hm : p ∈ writtenProps (o.keyOrder t) ps := (C42_properties _ _).symm.subset hp
        generalize writtenProps (o.keyOrder t) ps = qs at this hm
        clear * - this hm
        induction this with
        | nil => cases hm
        | cons hd _ ih =>
          rcases List.mem_cons.1 hm with rfl | hm
          · exact ⟨_, hd⟩
          · exact ih hm
      | sub hc hp =>
        refine (ih _ hc).1 ?_ p hp
        have hm := h2.symm.subset hc
        clear * - h3 hm
        induction h3 with
        | nil => cases hm
        | cons hd _ ih =>
          rcases List.mem_cons.1 hm with rfl | hm
          · exact ⟨_, hd⟩
          · exact ih hm
    · intro h
      obtain ⟨xs, h1⟩ := mapM_all (f := write) (l := writtenProps (o.keyOrder t) ps) fun p hp =>
        h p (.here ((C42_properties _ _).subset hp))
      obtain ⟨subs, h2⟩ := all_some (write := write) (o := o) (cs := cs) fun c hc =>
        (ih c hc).2 fun p hp => h p (.sub hc hp)
      obtain ⟨l, h3, -⟩ := Ord42.sortedTagged_perm heq t (cs := tag cs) (by
        rw [Ord42.tag_fst]; exact List.nodup_range)
      exact ⟨_, by rw [compElem, h1, h2, h3]⟩

/-- C90: the calendar is inside the element `icalendar`. -/
theorem C90_root (write : CProp → Option Xml) (o : Order)
    (heq : ∀ a b, o.eq a b = true → a.type = b.type) (c : Component) (x : Xml)
    (h : rootElem write o c = some x) :
    ∃ y, x = .elem "icalendar".toList .none [y] ∧ Spec.XCal.TreeForm (fun p x => write p = some x) c y := by
  unfold rootElem at h
  cases hc : compElem write o c with
  | none => rw [hc] at h; cases h
  | some y =>
    rw [hc] at h
    exact ⟨y, (Option.some.inj h).symm, C90_written_partial write o heq c y hc⟩

/-- C90 fails: if anywhere in a calendar there is a property with a duration, a period or a request status,
the calendar is not written.  `value`: what a property has. -/
theorem C90_fails_raises (value : CProp → XProp) (o : Order)
    (heq : ∀ a b, o.eq a b = true → a.type = b.type) (c : Component) (p : CProp) (hp : Within p c)
    (v : XVal) (hv : v ∈ (value p).values)
    (h : (∃ d, v = .duration d) ∨ (∃ q, v = .period q) ∨ ∃ l, v = .status l) :
    rootElem (fun p => propElem false (value p)) o c = none := by
  have hn : compElem (fun p => propElem false (value p)) o c = none := by
    cases hc : compElem (fun p => propElem false (value p)) o c with
    | none => rfl
    | some x =>
      obtain ⟨y, hy⟩ := (C90_all _ o heq c).1 ⟨x, hc⟩ p hp
      rw [C89_fails_raises (value p) v hv h] at hy
      cases hy
  rw [rootElem, hn]
  rfl

/-- An event with an alarm, each property being a text. -/
example : rootElem (fun p => some (leaf "p" p.text)) Tree41.plain
      (.mk "VCALENDAR".toList [⟨"VERSION".toList, "2.0".toList⟩]
        [.mk "VEVENT".toList [⟨"UID".toList, "1".toList⟩] [.mk "VALARM".toList [] []]]) =
    some (.elem "icalendar".toList .none [.elem "vcalendar".toList .none
      [.elem "properties".toList .none [leaf "p" "2.0".toList],
       .elem "components".toList .none [.elem "vevent".toList .none
        [.elem "properties".toList .none [leaf "p" "1".toList],
         .elem "components".toList .none [.elem "valarm".toList .none
          [.elem "properties".toList .none []]]]]]]) := by
  rfl

end PyCal
