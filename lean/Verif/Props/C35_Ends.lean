import Verif.Lemmas.Fuel
import Verif.Props.C35_Zones

/-!
# C35: every question about an offset is answered

The lookup of an offset in a time zone as parsed ends, in every state the time zone object can
reach, and more iterations than needed give the same answer.
-/

namespace PyCal
open DateTime (TzEnv InZone)
open TzElement (newYear)
open Spec

section
variable {env : TzEnv} {o : SetOrder} {start : DateTime} {off : Int} {r : Rule}

/-- The expansions of a rule end. -/
def RuleEnds (env : TzEnv) (start : DateTime) (off : Int) (r : Rule) : Prop :=
  ∀ c stop, Clock stop → ∃ fuel l lim c',
    r.expand env fuel c start (.ofEnd start stop) off none = some (.dates l lim, c')

theorem ruleEnds_of {fuel : Nat} {a : Rule.Answer} {range : Period}
    (ha : r.expandFresh env fuel start range off = some a) (c : Rule.Cache) :
    ∃ fuel l lim c', r.expand env fuel c start range off none = some (.dates l lim, c') := by
  have hraw : ∃ items full, r.expandRaw env fuel start.normalise range off none
      = some (.done items full) := by
    unfold Rule.expandFresh at ha
    simp only [Option.map_eq_some_iff] at ha
    obtain ⟨⟨a', c'⟩, ha, _⟩ := ha
    rcases Rule.expand_cases ha with ⟨_, ho, _, _⟩ | ⟨_, _, ho, _, _⟩ | ⟨hf, _⟩
    · exact absurd ho Rule.expandRaw_none_done
    · exact ⟨_, _, ho⟩
    · simp at hf
  obtain ⟨items, full, hraw⟩ := hraw
  refine ⟨fuel, ?_⟩
  unfold Rule.expand
  simp only [hraw]
  generalize (if (c.cached && Rule.startDiffers env start.normalise c.start) = true then _ else c)
    = d
  split
  · unfold Rule.answer; exact ⟨_, _, _, rfl⟩
  · unfold Rule.answer; exact ⟨_, _, _, rfl⟩

theorem zoneRule_ends (hs : Clock start) (hr : ZoneRule r start)
    (hleap : start.month = 2 → start.day = 29 → GregorianLeap start.year) :
    RuleEnds env start off r := by
  intro c stop hy
  have hz : Period.Kind env (InZone false none) := .inr (.inl ⟨false, none, rfl⟩)
  obtain ⟨fuel, a, ha⟩ := Rule.C54_ends_partial env (InZone false none) r start
    (.ofEnd start stop) off hr.hasBy
    ⟨hz, hs.1, clock_inZone hs, by simp, fun hd => absurd hd (by rw [hs.2.1]; simp),
      hr.tame.interval⟩ (clock_inZone hy) hleap
  exact ruleEnds_of ha c

theorem plainRule_ends (hs : Clock start) (hr : PlainRule r start off)
    (hleap : start.month = 2 → start.day = 29 → GregorianLeap start.year) :
    RuleEnds env start off r := by
  intro c stop hy
  have hA := plainRule_ask (env := env) hs hr hy
  obtain ⟨fuel, l, lim, ha⟩ := Rule.C28_ends_partial env (InZone false none) r start
    (.ofEnd start stop) off hr.noBy hA.sound hA.stopK hleap
  exact ruleEnds_of ha c

theorem expandRules_ends {stop : DateTime} (hy : Clock stop) : ∀ {rs : List (Rule × Rule.Cache)} (items : List DateTime)
    (lim : Bool), (∀ p ∈ rs, RuleEnds env start off p.1) → ∃ fuel items' lim' rs',
    RecurrenceSet.expandRules env fuel start (.ofEnd start stop) off none rs items lim =
      some (.dates items' lim' rs')
  | [], items, lim, _ => ⟨0, items, lim, [], rfl⟩
  | (r, c) :: rs, items, lim, h => by
    obtain ⟨n, l, lim1, c', h1⟩ := h (r, c) (by simp) c stop hy
    obtain ⟨m, items', lim', rs', h2⟩ := expandRules_ends hy (items ++ l) (lim || lim1)
      (rs := rs) (fun p hp => h p (by simp [hp]))
    refine ⟨max n m, items', lim', (r, c') :: rs', ?_⟩
    rw [RecurrenceSet.expandRules, Rule.expand_mono (le_max_left n m) h1]
    simp only
    rw [RecurrenceSet.expandRules_mono (le_max_right n m) h2]

theorem addOne_some : ∀ (l : List (DateTime × Bool)) (acc : List DateTime × Bool),
    ∃ acc', l.foldlM (RecurrenceSet.addOne none) acc = some acc'
  | [], acc => ⟨acc, rfl⟩
  | (u, b) :: l, acc => by
    rw [List.foldlM_cons]
    cases b with
    | true =>
      simp only [RecurrenceSet.addOne, Rule.exceeds, if_true, Bool.false_eq_true, if_false]
      exact addOne_some l _
    | false =>
      simp only [RecurrenceSet.addOne, Bool.false_eq_true, if_false]
      exact addOne_some l _

/-- The expansions of the recurrence set of an element end. -/
def Desc.Ends (env : TzEnv) (o : SetOrder) (d : Desc) : Prop :=
  ∀ s stop, d.I s → Clock stop → ∃ fuel l lim s',
    s.expand env o fuel d.start (.ofEnd d.start stop) d.offsetFrom none =
      some (.dates l lim s')

theorem zoneDesc_ends (f g : Int) {rules : List RuleDesc} {rdates : List DateTime}
    (hok : ∀ r ∈ rules, RuleEnds env start f r.rule) :
    (zoneDesc start f g rules rdates).Ends env o := by
  rintro s stop ⟨h1, _, h3, _⟩ hy
  have hrules : ∀ p ∈ s.rrules, RuleEnds env start f p.1 := by
    clear h3
    generalize s.rrules = rs at h1
    induction h1 with
    | nil => simp
    | cons hp _ ih =>
      intro q hq
      rcases List.mem_cons.mp hq with rfl | hq
      · rw [hp.1]; exact hok _ (by simp)
      · exact ih (fun r hr => hok r (by simp [hr])) q hq
  change ∃ fuel l lim s', s.expand env o fuel start (.ofEnd start stop) f none = _
  obtain ⟨n, items, lim, rs', hx⟩ := expandRules_ends hy
    (if (Period.ofEnd start stop).isDateWithin env start then [start] else [])
    (!(Period.ofEnd start stop).isDateWithin env start) hrules
  obtain ⟨acc, ha⟩ := addOne_some (s.rdateTests env (.ofEnd start stop)) (items, lim)
  refine ⟨n, ?_⟩
  unfold RecurrenceSet.expand
  simp only [hx, ha, h3, RecurrenceSet.expandRules]
  exact ⟨_, _, _, rfl⟩

theorem parsed_ends {e : TzElement} (h : ParsedElement e) : (descOf env e).Ends env o := by
  refine zoneDesc_ends _ _ ?_
  intro r hr
  obtain ⟨p, hp, rfl⟩ := List.mem_map.mp hr
  rcases (h.rules p hp).2 with hr | hr
  · exact zoneRule_ends h.start hr h.leap
  · exact plainRule_ends h.start hr h.leap

theorem fill_ends {d : Desc} {e : TzElement} (hd : d.Ends env o) (he : ElementOk d e)
    (temp : DateTime) {stop : DateTime} (hy : Clock stop) :
    ∃ fuel e', e.fill env o fuel temp stop = some e' := by
  obtain ⟨fuel, l, lim, s', hx⟩ := hd _ stop he.state hy
  refine ⟨fuel, ?_⟩
  unfold TzElement.fill
  simp only [Option.getD_some]
  split
  · rw [he.start, he.offsets.1, hx]
    exact ⟨_, rfl⟩
  · exact ⟨_, rfl⟩

theorem elementAll_ends {d : Desc} {e : TzElement} (hd : d.Ends env o) (he : ElementOk d e)
    (start : Option DateTime) {stop : DateTime} (hy : Clock stop) :
    ∃ fuel v, e.expandAll env o fuel start stop = some v := by
  obtain ⟨fuel, e', hx⟩ := fill_ends hd he (newYear stop.year) hy
  refine ⟨fuel, ?_⟩
  unfold TzElement.expandAll
  simp only
  split
  · exact ⟨_, rfl⟩
  · split
    · exact ⟨_, rfl⟩
    · rw [hx]
      exact ⟨_, rfl⟩

theorem expandElements_ends {ds : List Desc} {es : List TzElement} (start : Option DateTime)
    {stop : DateTime} (hy : Clock stop)
    (hds : ∀ d ∈ ds, d.Ends env o) (hes : List.Forall₂ ElementOk ds es) :
    ∃ fuel v, Zone.expandElements env o fuel start stop es = some v := by
  induction hes with
  | nil => exact ⟨0, _, rfl⟩
  | @cons d e ds es h1 h2 ih =>
    obtain ⟨n, v, hv⟩ := elementAll_ends (hds d (by simp)) h1 start hy
    obtain ⟨m, w, hw⟩ := ih (fun d hd => hds d (by simp [hd]))
    refine ⟨max n m, ?_⟩
    rw [Zone.expandElements, TzElement.expandAll_mono (le_max_left n m) hv]
    simp only
    rw [Zone.expandElements_mono (le_max_right n m) hw]
    exact ⟨_, rfl⟩

/-- C35 (partial): in a time zone as parsed (see `C35_zone_partial`), in whatever state previous
questions left it, every question about an offset is answered (the calculation ends), and allowing
more iterations gives the same answer.  Missing: rules that can run forever (`C28_fails_endless`). -/
theorem C35_ends_partial (env : TzEnv) (he : DefaultUtc env) (o : SetOrder)
    (o' : SetOrder (DateTime × Int × Int)) (z z1 : Zone) (hp : ∀ e ∈ z.elements, ParsedElement e)
    (h0 : z.maxYear = none) (hm : WholeMinutes (z.elements.map (descOf env)))
    (hr : ZoneReach env o o' z z1) (x : DateTime) (hx : x.Valid) (hd : x.dateOnly = false)
    (rel : Bool) :
    ∃ fuel v z2, ∀ n, fuel ≤ n → z1.offsetSeconds env o o' n x rel = some (v, z2) := by
  obtain ⟨hf, hds⟩ := parsed_zone (o := o) he hp h0
  have hz := reach_ok he hds hm hf hr
  have hends : ∀ d ∈ z.elements.map (descOf env), d.Ends env o := by
    intro d hd
    obtain ⟨e, he', rfl⟩ := List.mem_map.mp hd
    exact parsed_ends (hp e he')
  have hc : Clock (Zone.asLocal x) := ⟨hx, hd, rfl, rfl⟩
  obtain ⟨fuel, w, hw⟩ := expandElements_ends none
    (clock_newYear (Zone.cacheMax (Zone.asLocal x)).year) hends hz.elements
  have : ∃ v, z1.offsetSeconds env o o' fuel x rel = some v := by
    unfold Zone.offsetSeconds Zone.recache Zone.expandAll
    split
    · rw [cacheMax_eq hc] at hw ⊢
      rw [show newYear (newYear ((Zone.asLocal x).year + 2)).year =
        newYear ((Zone.asLocal x).year + 2) from rfl] at hw
      rw [hw]
      exact ⟨_, rfl⟩
    · exact ⟨_, rfl⟩
  obtain ⟨⟨v, z2⟩, hv⟩ := this
  exact ⟨fuel, v, z2, fun n hn => Zone.offsetSeconds_mono hn hv⟩

end
end PyCal
