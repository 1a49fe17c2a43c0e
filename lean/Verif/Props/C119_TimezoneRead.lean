import Verif.Props.C35_Zones
import Verif.Model.TimezoneRead

/-!
# C119: what is read of a VTIMEZONE

The order of the observances in the text does not matter; a copy of a time zone gives the offsets that
the original gives.
-/

namespace PyCal
open DateTime (TzEnv)
open Spec

namespace T119

/-- The first property named `name` in the text has the value `v`. -/
def First (ps : List TzProp) (name : String) (v : TzVal) : Prop :=
  ∃ pre post, ps = pre ++ ⟨name, v⟩ :: post ∧ ∀ p ∈ pre, p.name ≠ name

theorem firstValue_of {ps : List TzProp} {name : String} {v : TzVal} (h : First ps name v) :
    firstValue ps name = some v := by
  obtain ⟨pre, post, rfl, h⟩ := h
  have : pre.find? (fun p => decide (p.name = name)) = none := by
    rw [List.find?_eq_none]; simpa using h
  simp [firstValue, List.find?_append, this]

theorem read_mem (env : TzEnv) (ps : List TzProp) (os : List (List TzProp)) :
    (Zone.read env ps os).2.elements.Perm (os.map TzElement.read) :=
  List.perm_insertionSort _ _

/-- "Not later": the order by which the elements are sorted. -/
def le (env : TzEnv) (a b : TzElement) : Bool := !b.start.lt env a.start

theorem le_iff {env : TzEnv} {a b : TzElement} (ha : Clock a.start) (hb : Clock b.start) :
    le env a b = true ↔ a.start.num ≤ b.start.num := by
  have := clock_lt (env := env) hb ha.1 ha.2.1
  unfold le
  rw [Bool.not_eq_true', Bool.eq_false_iff, ne_eq, this]
  omega

theorem ordered_insert {env : TzEnv} {a : TzElement} (ha : Clock a.start) :
    ∀ {l : List TzElement}, (∀ e ∈ l, Clock e.start) →
      l.Pairwise (fun a b => a.start.num ≤ b.start.num) →
      (l.orderedInsert (fun a b => le env a b = true) a).Pairwise
        (fun a b => a.start.num ≤ b.start.num)
  | [], _, _ => by simp
  | b :: l, hl, h => by
    rw [List.orderedInsert]
    have hb := hl b (by simp)
    rw [List.pairwise_cons] at h
    by_cases hab : le env a b = true
    · rw [if_pos hab, List.pairwise_cons]
      refine ⟨?_, List.pairwise_cons.mpr h⟩
      have := (le_iff ha hb).mp hab
      intro c hc
      rcases List.mem_cons.mp hc with rfl | hc
      · exact this
      · have := h.1 c hc
        omega
    · rw [if_neg hab, List.pairwise_cons]
      rw [le_iff ha hb] at hab
      refine ⟨?_, ordered_insert ha (fun e he => hl e (by simp [he])) h.2⟩
      intro c hc
      rcases (List.mem_orderedInsert _).mp hc with rfl | hc
      · omega
      · exact h.1 c hc

theorem sorted_num {env : TzEnv} : ∀ {l : List TzElement}, (∀ e ∈ l, Clock e.start) →
    (l.insertionSort (fun a b => le env a b = true)).Pairwise (fun a b => a.start.num ≤ b.start.num)
  | [], _ => by simp
  | a :: l, hl => by
    rw [List.insertionSort_cons]
    refine ordered_insert (hl a (by simp)) ?_ (sorted_num fun e he => hl e (by simp [he]))
    intro e he
    exact hl e (by simp [(List.mem_insertionSort _).mp he])

/-- Inserting an element keeps the order of those with one start. -/
theorem insert_filter {env : TzEnv} {a : TzElement} (t : DateTime) (ha : Clock a.start) :
    ∀ {l : List TzElement}, (∀ e ∈ l, Clock e.start) →
      (l.orderedInsert (fun a b => le env a b = true) a).filter (fun e => decide (e.start = t)) =
        (a :: l).filter (fun e => decide (e.start = t))
  | [], _ => rfl
  | b :: l, hl => by
    rw [List.orderedInsert]
    have hb := hl b (by simp)
    by_cases hab : le env a b = true
    · rw [if_pos hab]
    · rw [if_neg hab]
      rw [le_iff ha hb] at hab
      have ih := insert_filter (env := env) t ha (fun e he => hl e (by simp [he])) (l := l)
      rw [List.filter_cons, ih, List.filter_cons, List.filter_cons, List.filter_cons]
      by_cases h1 : a.start = t
      · by_cases h2 : b.start = t
        · rw [h1, h2] at hab; omega
        · simp [h1, h2]
      · simp [h1]

theorem sort_filter {env : TzEnv} (t : DateTime) : ∀ {l : List TzElement}, (∀ e ∈ l, Clock e.start) →
    (l.insertionSort (fun a b => le env a b = true)).filter (fun e => decide (e.start = t)) =
      l.filter (fun e => decide (e.start = t))
  | [], _ => rfl
  | a :: l, hl => by
    rw [List.insertionSort_cons, insert_filter t (hl a (by simp)), List.filter_cons, List.filter_cons,
      sort_filter t fun e he => hl e (by simp [he])]
    intro e he
    exact hl e (by simp [(List.mem_insertionSort _).mp he])

theorem read_sorted {env : TzEnv} {ps : List TzProp} {os : List (List TzProp)} :
    (Zone.read env ps os).2.elements =
      (os.map TzElement.read).insertionSort (fun a b => le env a b = true) := rfl

/-- Two lists sorted by start, with the same members and all starts different, are one. -/
theorem eq_of_sorted : ∀ {a b : List TzElement}, a.Perm b →
    a.Pairwise (fun x y => x.start.num < y.start.num) →
    b.Pairwise (fun x y => x.start.num < y.start.num) → a = b
  | [], b, h, _, _ => (List.nil_perm.mp h).symm
  | x :: a, [], h, _, _ => absurd h.length_eq (by simp)
  | x :: a, y :: b, h, h1, h2 => by
    rw [List.pairwise_cons] at h1 h2
    have hxy : x = y := by
      rcases List.mem_cons.mp (h.subset (List.mem_cons_self ..)) with e | e
      · exact e
      · rcases List.mem_cons.mp (h.symm.subset (List.mem_cons_self ..)) with e' | e'
        · exact e'.symm
        · have := h1.1 y e'
          have := h2.1 x e
          omega
    subst hxy
    rw [eq_of_sorted (List.Perm.cons_inv h) h1.2 h2.2]

theorem strict_of {l : List TzElement} (h : l.Pairwise (fun a b => a.start.num ≤ b.start.num))
    (hd : l.Pairwise (fun a b => a.start.num ≠ b.start.num)) :
    l.Pairwise (fun x y => x.start.num < y.start.num) :=
  (h.and hd).imp (by intro a b h; omega)

theorem ne_perm {a b : List TzElement} (h : a.Perm b)
    (hd : a.Pairwise (fun a b => a.start.num ≠ b.start.num)) :
    b.Pairwise (fun a b => a.start.num ≠ b.start.num) :=
  h.pairwise hd (fun h => h.symm)

end T119
open T119

/-- C119: a STANDARD or DAYLIGHT component as parsed has its DTSTART, offsets and name, the rules of its
RRULEs and the dates of its RDATEs; nothing is cached yet. -/
theorem C119_element (ps : List TzProp) {t : DateTime} {f g : Int} {s : List Char}
    (h1 : First ps "DTSTART" (.dateTime t)) (h2 : First ps "TZOFFSETFROM" (.offset f))
    (h3 : First ps "TZOFFSETTO" (.offset g)) (h4 : First ps "TZNAME" (.text s)) :
    let e := TzElement.read ps
    e.start = t ∧ e.offsetFrom = f ∧ e.offsetTo = g ∧ e.name = s ∧ e.below = none ∧ e.items = none ∧
    (∀ p, p ∈ e.recurrences.rrules ↔ ∃ r, p = (r, {}) ∧ ⟨"RRULE", .rule r⟩ ∈ ps) ∧
    (∀ d, d ∈ e.recurrences.rdates ↔ ∃ l, ⟨"RDATE", .dates l⟩ ∈ ps ∧ d ∈ l) ∧
    e.recurrences.exrules = [] ∧ e.recurrences.exdates = [] ∧ e.recurrences.rperiods = [] ∧
    e.recurrences.experiods = [] := by
  refine ⟨by simp [TzElement.read, TzElement.finalise, loadDateTime, firstValue_of h1],
    by simp [TzElement.read, TzElement.finalise, loadOffset, firstValue_of h2],
    by simp [TzElement.read, TzElement.finalise, loadOffset, firstValue_of h3],
    by simp [TzElement.read, TzElement.finalise, loadText, firstValue_of h4], rfl, rfl, ?_, ?_,
    rfl, rfl, rfl, rfl⟩
  · intro p
    simp only [TzElement.read, TzElement.finalise, TzElement.new, List.nil_append, List.mem_map,
      List.mem_flatMap]
    constructor
    · rintro ⟨r, ⟨⟨n, v⟩, hq, hr⟩, rfl⟩
      cases v <;> simp only [ruleOf, List.not_mem_nil] at hr
      split at hr
      · next hn =>
        have hn : n = "RRULE" := hn
        rw [List.mem_singleton] at hr
        subst hr hn
        exact ⟨_, rfl, hq⟩
      · simp at hr
    · rintro ⟨r, rfl, hr⟩
      exact ⟨r, ⟨_, hr, by simp [ruleOf]⟩, rfl⟩
  · intro d
    simp only [TzElement.read, TzElement.finalise, TzElement.new, List.nil_append, List.mem_flatMap]
    constructor
    · rintro ⟨⟨n, v⟩, hq, hr⟩
      cases v <;> simp only [datesOf, List.not_mem_nil] at hr
      split at hr
      · next hn =>
        have hn : n = "RDATE" := hn
        subst hn
        exact ⟨_, hq, hr⟩
      · simp at hr
    · rintro ⟨l, hl, hd⟩
      exact ⟨_, hl, by simpa [datesOf] using hd⟩

/-- C119: a VTIMEZONE as parsed has its TZID; its observances are sorted by DTSTART, and those with one
DTSTART are in the order of the text. -/
theorem C119_sorted (env : TzEnv) (ps : List TzProp) (os : List (List TzProp)) {id : List Char}
    (hid : First ps "TZID" (.text id)) (hc : ∀ o ∈ os, Clock (TzElement.read o).start) :
    (Zone.read env ps os).1 = id ∧ (Zone.read env ps os).2.maxYear = none ∧
    (Zone.read env ps os).2.elements.Perm (os.map TzElement.read) ∧
    (Zone.read env ps os).2.elements.Pairwise (fun a b => a.start.num ≤ b.start.num) ∧
    ∀ t, (Zone.read env ps os).2.elements.filter (fun e => decide (e.start = t)) =
      (os.map TzElement.read).filter (fun e => decide (e.start = t)) := by
  have hc' : ∀ e ∈ os.map TzElement.read, Clock e.start := by simpa using hc
  exact ⟨by simp [Zone.read, loadText, firstValue_of hid], rfl, read_mem env ps os, sorted_num hc',
    fun t => sort_filter t hc'⟩

/-- C119: the order of the observances in the text does not matter, if no two of them have one DTSTART:
what is read is the same, and with it everything asked of it. -/
theorem C119_order (env : TzEnv) (ps : List TzProp) (os os' : List (List TzProp)) (hp : os.Perm os')
    (hc : ∀ o ∈ os, Clock (TzElement.read o).start)
    (hd : os.Pairwise fun a b => (TzElement.read a).start ≠ (TzElement.read b).start) :
    Zone.read env ps os = Zone.read env ps os' := by
  have hc1 : ∀ e ∈ os.map TzElement.read, Clock e.start := by simpa using hc
  have hc2 : ∀ e ∈ os'.map TzElement.read, Clock e.start := by
    simpa using fun o ho => hc o (hp.symm.subset ho)
  have hd1 : (os.map TzElement.read).Pairwise (fun a b => a.start.num ≠ b.start.num) := by
    rw [List.pairwise_map]
    refine List.Pairwise.imp_of_mem ?_ hd
    intro a b ha hb hne he
    exact hne (clock_ext (hc a ha) (hc b hb) he)
  have hpm := hp.map TzElement.read
  have : (Zone.read env ps os).2.elements = (Zone.read env ps os').2.elements := by
    refine eq_of_sorted (((read_mem env ps os).trans hpm).trans (read_mem env ps os').symm) ?_ ?_
    · exact strict_of (sorted_num hc1) (ne_perm (read_mem env ps os).symm hd1)
    · exact strict_of (sorted_num hc2) (ne_perm (hpm.trans (read_mem env ps os').symm) hd1)
  simpa [Zone.read] using this

theorem tr_perm {ds ds' : List Desc} (h : ds.Perm ds') {t : DateTime} {f g : Int} :
    Tr ds t f g ↔ Tr ds' t f g := by
  unfold Tr
  simp only [h.mem_iff]

/-- C119 (partial): also if several observances have one DTSTART, the offsets do not depend on the order of
the observances in the text, nor on what was asked before.  Needed: what `C36_zone_partial` needs.

Missing: the name that is shown, `C119_fails_name`. -/
theorem C119_offsets_partial {env : TzEnv} (he : DefaultUtc env) {oa ob : SetOrder}
    {oa' ob' : SetOrder (DateTime × Int × Int)} {pa pb : List TzProp} {os os' : List (List TzProp)}
    (hperm : os.Perm os') {za zb za' zb' : Zone}
    (hp : ∀ o ∈ os, ParsedElement (TzElement.read o))
    (hm : WholeMinutes (os.map fun o => descOf env (TzElement.read o)))
    (hra : ZoneReach env oa oa' (Zone.read env pa os).2 za)
    (hrb : ZoneReach env ob ob' (Zone.read env pb os').2 zb) {na nb : Nat} {x : DateTime} (hx : x.Valid)
    (hd : x.dateOnly = false) {rel : Bool}
    (hrel : rel = true → OrderlyAt (os.map fun o => descOf env (TzElement.read o)) x.num)
    (hone : ∀ t f g t' f' g', Tr (os.map fun o => descOf env (TzElement.read o)) t f g →
      Tr (os.map fun o => descOf env (TzElement.read o)) t' f' g' →
      timeOf rel t f = timeOf rel t' f' → g = g') {va vb : Int}
    (hqa : za.offsetSeconds env oa oa' na x rel = some (va, za'))
    (hqb : zb.offsetSeconds env ob ob' nb x rel = some (vb, zb')) : va = vb := by
  have key : ∀ {o : SetOrder} {o' : SetOrder (DateTime × Int × Int)} {ps : List TzProp}
      {os1 : List (List TzProp)} {z1 z2 : Zone} {n : Nat} {v : Int}, os.Perm os1 →
      ZoneReach env o o' (Zone.read env ps os1).2 z1 →
      z1.offsetSeconds env o o' n x rel = some (v, z2) →
      IsOffset (os.map fun o => descOf env (TzElement.read o)) rel x.num v ∨
        BeforeAll (os.map fun o => descOf env (TzElement.read o)) rel x.num ∧ v = 0 := by
    intro o o' ps os1 z1 z2 n v hp1 hr hq
    have hpe : ((Zone.read env ps os1).2.elements.map (descOf env)).Perm
        (os.map fun o => descOf env (TzElement.read o)) := by
      have := (read_mem env ps os1).map (descOf env)
      rw [List.map_map] at this
      exact this.trans (hp1.symm.map _)
    have htr : ∀ {t : DateTime} {f g : Int}, Tr ((Zone.read env ps os1).2.elements.map (descOf env)) t f g ↔
        Tr (os.map fun o => descOf env (TzElement.read o)) t f g := tr_perm hpe
    have hpp : ∀ e ∈ (Zone.read env ps os1).2.elements, ParsedElement e := by
      intro e hmem
      obtain ⟨o, ho, rfl⟩ := List.mem_map.mp ((read_mem env ps os1).subset hmem)
      exact hp o (hp1.symm.subset ho)
    have := C35_zone_partial he hpp rfl (by
      intro t f g h; exact hm t f g (htr.mp h)) hr hx hd (rel := rel) (by
      intro h
      obtain ⟨o1, o2⟩ := hrel h
      exact ⟨fun t f g t' f' g' a b => o1 t f g t' f' g' (htr.mp a) (htr.mp b),
        fun t f g y a => o2 t f g y (htr.mp a)⟩) hq
    rcases this with ⟨t, f, a1, a2, a3⟩ | ⟨a1, a2⟩
    · exact .inl ⟨t, f, htr.mp a1, a2, fun t' f' g' b => a3 t' f' g' (htr.mpr b)⟩
    · exact .inr ⟨fun t f g b => a1 t f g (htr.mpr b), a2⟩
  rcases key (List.Perm.refl os) hra hqa with ⟨t, f, h1, h1', h1''⟩ | ⟨h1, rfl⟩
  · rcases key hperm hrb hqb with ⟨t', f', h2, h2', h2''⟩ | ⟨h2, rfl⟩
    · have := h1'' t' f' vb h2 h2'
      have := h2'' t f va h1 h1'
      exact hone _ _ _ _ _ _ h1 h2 (by omega)
    · have := h2 _ _ _ h1
      omega
  · rcases key hperm hrb hqb with ⟨t', f', h2, h2', h2''⟩ | ⟨_, rfl⟩
    · have := h1 _ _ _ h2
      omega
    · rfl

/-- C119 (partial): a copy, made at any time, gives the offsets that the original gives, whatever was asked of
the original before or is asked of either afterwards.  Needed: what `C36_zone_partial` needs.

Missing: as for `C119_offsets_partial`. -/
theorem C119_copy_partial {env : TzEnv} (he : DefaultUtc env) {o : SetOrder}
    {o' : SetOrder (DateTime × Int × Int)} {z z1 za zb za' zb' : Zone}
    (hp : ∀ e ∈ z.elements, ParsedElement e) (h0 : z.maxYear = none)
    (hm : WholeMinutes (z.elements.map (descOf env))) (hr1 : ZoneReach env o o' z z1)
    (hra : ZoneReach env o o' z1 za) (hrb : ZoneReach env o o' z1.duplicate zb)
    {na nb : Nat} {x : DateTime} (hx : x.Valid) (hd : x.dateOnly = false) {rel : Bool}
    (hrel : rel = true → OrderlyAt (z.elements.map (descOf env)) x.num)
    (hone : ∀ t f g t' f' g', Tr (z.elements.map (descOf env)) t f g →
      Tr (z.elements.map (descOf env)) t' f' g' → timeOf rel t f = timeOf rel t' f' → g = g')
    {va vb : Int} (hqa : za.offsetSeconds env o o' na x rel = some (va, za'))
    (hqb : zb.offsetSeconds env o o' nb x rel = some (vb, zb')) : va = vb := by
  obtain ⟨hf, hok⟩ := parsed_zone (o := o) he hp h0
  have hz1 := reach_ok he hok hm hf hr1
  have hreach : ZoneReach env o o' z za := by
    clear hqa hrb
    induction hra with
    | start => exact hr1
    | offset _ hx hd hq ih => exact .offset ih hx hd hq
    | find _ hq ih => exact .find ih hq
    | expand _ hs hq ih => exact .expand ih hs hq
  have hdup : Fresh (z.elements.map (descOf env)) z1.duplicate := by
    refine ⟨rfl, ?_⟩
    show List.Forall₂ ElementOk _ (z1.elements.map TzElement.duplicate)
    rw [List.forall₂_map_right_iff]
    refine hz1.elements.imp ?_
    intro d e h
    exact ⟨h.start, h.offsets, h.state, fun _ => rfl, fun b hb => by
      simp [TzElement.duplicate] at hb⟩
  have h1 := C35_offset_partial he hok hm hf hreach hx hd hrel hqa
  have h2 := C35_offset_partial he hok hm hdup hrb hx hd hrel hqb
  rcases h1 with ⟨t, f, h1, h1', h1''⟩ | ⟨h1, rfl⟩
  · rcases h2 with ⟨t', f', h2, h2', h2''⟩ | ⟨h2, rfl⟩
    · have := h1'' t' f' vb h2 h2'
      have := h2'' t f va h1 h1'
      exact hone _ _ _ _ _ _ h1 h2 (by omega)
    · have := h2 _ _ _ h1
      omega
  · rcases h2 with ⟨t', f', h2, h2', h2''⟩ | ⟨_, rfl⟩
    · have := h1 _ _ _ h2
      omega
    · rfl

/-- The properties of an observance. -/
def observance (t : DateTime) (f g : Int) (s : String) : List TzProp :=
  [⟨"TZOFFSETFROM", .offset f⟩, ⟨"TZOFFSETTO", .offset g⟩, ⟨"TZNAME", .text s.toList⟩,
    ⟨"DTSTART", .dateTime t⟩]

/-- C119 fails for the name that is shown: with two observances that start at one time, it is that of the
first in the text. -/
theorem C119_fails_name :
    let a := observance (minute 2010 3 11 2 0 0) 0 3600 "A"
    let b := observance (minute 2010 3 11 2 0 0) 0 3600 "B"
    (((Zone.read .empty [] [a, b]).2.descriptor .empty RecurrenceSet.inOrder 30
        (minute 2010 7 1 0 0 0)).map (·.1) = some "(A)".toList) ∧
    (((Zone.read .empty [] [b, a]).2.descriptor .empty RecurrenceSet.inOrder 30
        (minute 2010 7 1 0 0 0)).map (·.1) = some "(B)".toList) := by
  decide +kernel

/-- The texts of Eastern Time, standard time first. -/
def easternText : List (List TzProp) :=
  [[⟨"DTSTART", .dateTime easternStandard⟩, ⟨"RRULE", .rule (sundayRule 11 1)⟩,
    ⟨"TZOFFSETFROM", .offset (-14400)⟩, ⟨"TZOFFSETTO", .offset (-18000)⟩],
   [⟨"DTSTART", .dateTime easternDaylight⟩, ⟨"RRULE", .rule (sundayRule 3 2)⟩,
    ⟨"TZOFFSETFROM", .offset (-18000)⟩, ⟨"TZOFFSETTO", .offset (-14400)⟩]]

/-- What is read of it is Eastern Time, for which the conditions of the theorems are met
(`eastern_meets`). -/
example : (Zone.read .empty [⟨"TZID", .text "E".toList⟩] easternText) = ("E".toList, eastern) := by
  have h : (easternDaylight.lt .empty easternStandard) = true := by decide +kernel
  simp [Zone.read, easternText, loadText, firstValue, TzElement.read, TzElement.finalise, TzElement.new,
    loadDateTime, loadOffset, ruleOf, datesOf, eastern, List.insertionSort_cons,
    List.orderedInsert, h]

example : (∀ o ∈ easternText, Clock (TzElement.read o).start) ∧
    easternText.Pairwise fun a b => (TzElement.read a).start ≠ (TzElement.read b).start := by
  constructor
  · simp only [easternText, List.mem_cons, List.not_mem_nil, or_false]
    rintro o (rfl | rfl)
    · exact clock_standard
    · exact clock_daylight
  · simp only [easternText, List.pairwise_cons, List.mem_singleton, forall_eq]
    exact ⟨by decide +kernel, by simp⟩

end PyCal
