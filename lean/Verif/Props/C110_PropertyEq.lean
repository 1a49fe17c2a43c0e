import Verif.Model.PropertyEq
import Verif.Props.C61_Equality

/-!
# C110: equality and hash of properties
-/

namespace PyCal
open PropEq

namespace P110
open ValueType (VType)
open PropText (Param upper)

/-- Two values of one type that say the same. -/
inductive SameLeaf (env : DateTime.TzEnv) : Leaf → Leaf → Prop
  | str (t : VType) (s : List Char) : SameLeaf env (.str t s) (.str t s)
  | int (t : VType) (n : Int) : SameLeaf env (.int t n) (.int t n)
  | float (q : Rat) : SameLeaf env (.float q) (.float q)
  | geo (a b : Rat) : SameLeaf env (.geo a b) (.geo a b)
  | status (l : List (List Char)) : SameLeaf env (.status l) (.status l)
  | org (c : Comp) : SameLeaf env (.org c) (.org c)
  | comps (t : VType) (l : List Comp) : SameLeaf env (.comps t l) (.comps t l)
  | duration (d e : Duration) (h : d.totalSeconds = e.totalSeconds) : SameLeaf env (.duration d) (.duration e)
  | period (p q : Period) (h : p.start.eq env q.start = true) (h' : p.stop.eq env q.stop = true) :
      SameLeaf env (.period p) (.period q)
  | rule (r s : Rule) (h : r.equals env s = true) : SameLeaf env (.rule r) (.rule s)
  | date (t u : DateTime) (hd : t.dateOnly = u.dateOnly) (h : t.eq env u = true) : SameLeaf env (.date t) (.date u)

/-- Two values of properties that say the same: the same single value, or the same values one for one. -/
inductive SameVal (env : DateTime.TzEnv) : Val → Val → Prop
  | one {a b : Leaf} (h : SameLeaf env a b) : SameVal env (.one a) (.one b)
  | multi (t : VType) {l m : List Leaf} (h : List.Forall₂ (SameLeaf env) l m) : SameVal env (.multi t l) (.multi t m)

/-- Two properties that say the same: the same name, the same value, and under each name of a parameter the same values in the
same order. -/
structure SameProp (env : DateTime.TzEnv) (p q : VProp) : Prop where
  name : p.name = q.name
  value : SameVal env p.value q.value
  params : ∀ key : List Char, (p.params.filter fun a => decide (upper a.name = key)).map (·.values) =
    (q.params.filter fun a => decide (upper a.name = key)).map (·.values)

theorem leaf_eq (env : DateTime.TzEnv) (a b : Leaf) : a.eq env b = true ↔ SameLeaf env a b := by
  constructor
  · intro h
    unfold Leaf.eq at h
    rw [Bool.and_eq_true, decide_eq_true_iff] at h
    obtain ⟨ht, h⟩ := h
    split at h <;> simp only [Leaf.type] at ht <;>
      (try simp only [Bool.and_eq_true, decide_eq_true_iff, Duration.eq, Period.eq] at h)
    · subst ht h; exact .str _ _
    · subst ht h; exact .int _ _
    · subst h; exact .float _
    · obtain ⟨rfl, rfl⟩ := h; exact .geo _ _
    · subst h; exact .status _
    · subst h; exact .org _
    · subst ht h; exact .comps _ _
    · exact .duration _ _ h
    · exact .period _ _ h.1 h.2
    · exact .rule _ _ h
    · refine .date _ _ ?_ h
      rename_i t u
      cases h1 : t.dateOnly <;> cases h2 : u.dateOnly <;> simp [h1, h2] at ht ⊢
    · cases h
  · intro h
    unfold Leaf.eq
    cases h with
    | duration d e h => simp [Leaf.type, Duration.eq, h]
    | period p q h h' => simp [Leaf.type, Period.eq, h, h']
    | rule r s h => simp [Leaf.type, h]
    | date t u hd h => simp [Leaf.type, hd, h]
    | _ => simp [Leaf.type]

theorem list_eq (env : DateTime.TzEnv) : ∀ l m : List Leaf, listEq env l m = true ↔ List.Forall₂ (SameLeaf env) l m
  | [], [] => by simp [listEq]
  | [], b :: m => by simp [listEq]
  | a :: l, [] => by simp [listEq]
  | a :: l, b :: m => by
    have ih := list_eq env l m
    unfold listEq at ih ⊢
    rw [List.forall₂_cons, ← ih, ← leaf_eq]
    simp only [List.length_cons, Nat.add_right_cancel_iff, List.zip_cons_cons, List.all_cons, Bool.and_eq_true,
      decide_eq_true_iff]
    tauto

theorem val_eq (env : DateTime.TzEnv) (a b : Val) : a.eq env b = true ↔ SameVal env a b := by
  constructor
  · intro h
    cases a <;> cases b <;> simp only [Val.eq, Bool.false_eq_true, Bool.and_eq_true, decide_eq_true_iff] at h
    · exact .one ((leaf_eq env _ _).1 h)
    · obtain ⟨rfl, h⟩ := h
      exact .multi _ ((list_eq env _ _).1 h)
  · intro h
    cases h with
    | one h => exact (leaf_eq env _ _).2 h
    | multi t h => simp [Val.eq, (list_eq env _ _).2 h]

theorem params_eq (ps qs : List Param) : CompEq.paramsEq ps qs = true ↔
    ∀ key : List Char, (ps.filter fun a => decide (upper a.name = key)).map (·.values) =
      (qs.filter fun a => decide (upper a.name = key)).map (·.values) :=
  CompEq.paramsEq_iff ps qs

/-- All dates and date-times in a value. -/
def LeafIn (K : DateTime → Prop) : Leaf → Prop
  | .date t => K t
  | .period p => K p.start ∧ K p.stop
  | .rule r => ∀ t, r.untilDate = some t → K t
  | _ => True

def ValIn (K : DateTime → Prop) : Val → Prop
  | .one a => LeafIn K a
  | .multi _ l => ∀ a ∈ l, LeafIn K a

/-- All lists of a rule in ascending order. -/
def RuleSorted (r : Rule) : Prop :=
  r.bySeconds.Pairwise (· ≤ ·) ∧ r.byMinutes.Pairwise (· ≤ ·) ∧ r.byHours.Pairwise (· ≤ ·) ∧ r.byDay.Pairwise Rule.dayLe ∧
  r.byMonthDay.Pairwise (· ≤ ·) ∧ r.byYearDay.Pairwise (· ≤ ·) ∧ r.byWeekNo.Pairwise (· ≤ ·) ∧ r.byMonth.Pairwise (· ≤ ·) ∧
  r.bySetPos.Pairwise (· ≤ ·)

def LeafSorted : Leaf → Prop
  | .rule r => RuleSorted r
  | _ => True

def ValSorted : Val → Prop
  | .one a => LeafSorted a
  | .multi _ l => ∀ a ∈ l, LeafSorted a

/-! ### An equivalence -/

theorem date_refl (env : DateTime.TzEnv) (t : DateTime) : t.eq env t = true := (DateTime.C17_antisymm env t t).2.2.1

theorem date_symm (env : DateTime.TzEnv) {t u : DateTime} (h : t.eq env u = true) : u.eq env t = true :=
  (DateTime.C17_antisymm env t u).2.1 ▸ h

theorem until_refl (env : DateTime.TzEnv) (a : Option DateTime) : Rule.equalsUntil env a a = true := by
  cases a with
  | none => rfl
  | some t => exact date_refl env t

theorem until_symm (env : DateTime.TzEnv) {a b : Option DateTime} (h : Rule.equalsUntil env a b = true) :
    Rule.equalsUntil env b a = true := by
  cases a <;> cases b <;> simp only [Rule.equalsUntil, Bool.false_eq_true] at h ⊢
  exact date_symm env h

theorem until_trans {env : DateTime.TzEnv} {K : DateTime → Prop} (hK : DateTime.Transitive env K) {a b c : Option DateTime}
    (ha : ∀ t, a = some t → K t) (hb : ∀ t, b = some t → K t) (hc : ∀ t, c = some t → K t)
    (h : Rule.equalsUntil env a b = true) (h' : Rule.equalsUntil env b c = true) : Rule.equalsUntil env a c = true := by
  cases a <;> cases b <;> cases c <;> simp only [Rule.equalsUntil, Bool.false_eq_true] at h h' ⊢
  exact hK.eq_eq _ _ _ (ha _ rfl) (hb _ rfl) (hc _ rfl) h h'

theorem rule_refl (env : DateTime.TzEnv) (r : Rule) : r.equals env r = true := by
  simp [Rule.equals, until_refl, CompEq.equalsNum_refl, CompEq.equalsDayNum_refl]

theorem num_symm {a b : List Int} (h : Rule.equalsNum a b = true) : Rule.equalsNum b a = true := by
  simp only [Rule.equalsNum, Bool.and_eq_true, decide_eq_true_iff] at h ⊢
  exact ⟨h.1.symm, h.2.symm⟩

theorem day_symm {a b : List (Int × Int)} (h : Rule.equalsDayNum a b = true) : Rule.equalsDayNum b a = true := by
  simp only [Rule.equalsDayNum, Bool.and_eq_true, decide_eq_true_iff] at h ⊢
  exact ⟨h.1.symm, h.2.symm⟩

theorem num_trans {a b c : List Int} (h : Rule.equalsNum a b = true) (h' : Rule.equalsNum b c = true) :
    Rule.equalsNum a c = true := by
  simp only [Rule.equalsNum, Bool.and_eq_true, decide_eq_true_iff] at h h' ⊢
  exact ⟨h.1.trans h'.1, h.2.trans h'.2⟩

theorem day_trans {a b c : List (Int × Int)} (h : Rule.equalsDayNum a b = true) (h' : Rule.equalsDayNum b c = true) :
    Rule.equalsDayNum a c = true := by
  simp only [Rule.equalsDayNum, Bool.and_eq_true, decide_eq_true_iff] at h h' ⊢
  exact ⟨h.1.trans h'.1, h.2.trans h'.2⟩

theorem rule_symm (env : DateTime.TzEnv) {r s : Rule} (h : r.equals env s = true) : s.equals env r = true := by
  simp only [Rule.equals, Bool.and_eq_true, decide_eq_true_iff] at h ⊢
  obtain ⟨⟨⟨⟨⟨⟨⟨⟨⟨⟨⟨⟨⟨⟨⟨h1, h2⟩, h3⟩, h4⟩, h5⟩, h6⟩, h7⟩, h8⟩, h9⟩, h10⟩, h11⟩, h12⟩, h13⟩, h14⟩, h15⟩, h16⟩ := h
  exact ⟨⟨⟨⟨⟨⟨⟨⟨⟨⟨⟨⟨⟨⟨⟨h1.symm, h2.symm⟩, h3.symm⟩, h4.symm⟩, until_symm env h5⟩, h6.symm⟩, num_symm h7⟩, num_symm h8⟩,
    num_symm h9⟩, day_symm h10⟩, num_symm h11⟩, num_symm h12⟩, num_symm h13⟩, num_symm h14⟩, num_symm h15⟩, h16.symm⟩

theorem rule_trans {env : DateTime.TzEnv} {K : DateTime → Prop} (hK : DateTime.Transitive env K) {r s t : Rule}
    (hr : ∀ u, r.untilDate = some u → K u) (hs : ∀ u, s.untilDate = some u → K u) (ht : ∀ u, t.untilDate = some u → K u)
    (h : r.equals env s = true) (h' : s.equals env t = true) : r.equals env t = true := by
  simp only [Rule.equals, Bool.and_eq_true, decide_eq_true_iff] at h h' ⊢
  obtain ⟨⟨⟨⟨⟨⟨⟨⟨⟨⟨⟨⟨⟨⟨⟨h1, h2⟩, h3⟩, h4⟩, h5⟩, h6⟩, h7⟩, h8⟩, h9⟩, h10⟩, h11⟩, h12⟩, h13⟩, h14⟩, h15⟩, h16⟩ := h
  obtain ⟨⟨⟨⟨⟨⟨⟨⟨⟨⟨⟨⟨⟨⟨⟨g1, g2⟩, g3⟩, g4⟩, g5⟩, g6⟩, g7⟩, g8⟩, g9⟩, g10⟩, g11⟩, g12⟩, g13⟩, g14⟩, g15⟩, g16⟩ := h'
  exact ⟨⟨⟨⟨⟨⟨⟨⟨⟨⟨⟨⟨⟨⟨⟨h1.trans g1, h2.trans g2⟩, h3.trans g3⟩, h4.trans g4⟩, until_trans hK hr hs ht h5 g5⟩, h6.trans g6⟩,
    num_trans h7 g7⟩, num_trans h8 g8⟩, num_trans h9 g9⟩, day_trans h10 g10⟩, num_trans h11 g11⟩, num_trans h12 g12⟩,
    num_trans h13 g13⟩, num_trans h14 g14⟩, num_trans h15 g15⟩, h16.trans g16⟩

theorem leaf_refl (env : DateTime.TzEnv) (a : Leaf) : SameLeaf env a a := by
  cases a with
  | str => exact .str ..
  | int => exact .int ..
  | float => exact .float _
  | geo => exact .geo ..
  | status => exact .status _
  | org => exact .org _
  | comps => exact .comps ..
  | duration => exact .duration _ _ rfl
  | period => exact .period _ _ (date_refl ..) (date_refl ..)
  | rule => exact .rule _ _ (rule_refl ..)
  | date => exact .date _ _ rfl (date_refl ..)

theorem leaf_symm {env : DateTime.TzEnv} {a b : Leaf} (h : SameLeaf env a b) : SameLeaf env b a := by
  cases h with
  | duration _ _ h => exact .duration _ _ h.symm
  | period _ _ h h' => exact .period _ _ (date_symm env h) (date_symm env h')
  | rule _ _ h => exact .rule _ _ (rule_symm env h)
  | date _ _ hd h => exact .date _ _ hd.symm (date_symm env h)
  | _ => exact leaf_refl env _

theorem leaf_trans {env : DateTime.TzEnv} {K : DateTime → Prop} (hK : DateTime.Transitive env K) {a b c : Leaf}
    (ha : LeafIn K a) (hb : LeafIn K b) (hc : LeafIn K c) (h : SameLeaf env a b) (h' : SameLeaf env b c) :
    SameLeaf env a c := by
  cases h with
  | duration _ _ h => cases h' with | duration _ _ h' => exact .duration _ _ (h.trans h')
  | period _ _ h g =>
    cases h' with
    | period _ _ h' g' => exact .period _ _ (hK.eq_eq _ _ _ ha.1 hb.1 hc.1 h h') (hK.eq_eq _ _ _ ha.2 hb.2 hc.2 g g')
  | rule _ _ h => cases h' with | rule _ _ h' => exact .rule _ _ (rule_trans hK ha hb hc h h')
  | date _ _ hd h => cases h' with | date _ _ hd' h' => exact .date _ _ (hd.trans hd') (hK.eq_eq _ _ _ ha hb hc h h')
  | _ => exact h'

theorem leaves_trans {env : DateTime.TzEnv} {K : DateTime → Prop} (hK : DateTime.Transitive env K) {a b c : List Leaf}
    (ha : ∀ x ∈ a, LeafIn K x) (hb : ∀ x ∈ b, LeafIn K x) (hc : ∀ x ∈ c, LeafIn K x)
    (h : List.Forall₂ (SameLeaf env) a b) (h' : List.Forall₂ (SameLeaf env) b c) : List.Forall₂ (SameLeaf env) a c := by
  induction h generalizing c with
  | nil => exact h'
  | cons h1 _ ih =>
    cases h' with
    | cons h2 h3 =>
      exact .cons (leaf_trans hK (ha _ List.mem_cons_self) (hb _ List.mem_cons_self) (hc _ List.mem_cons_self) h1 h2)
        (ih (fun x hx => ha x (List.mem_cons_of_mem _ hx)) (fun x hx => hb x (List.mem_cons_of_mem _ hx))
          (fun x hx => hc x (List.mem_cons_of_mem _ hx)) h3)

/-! ### The hash -/

theorem num_sorted {a b : List Int} (ha : a.Pairwise (· ≤ ·)) (hb : b.Pairwise (· ≤ ·)) (h : Rule.equalsNum a b = true) :
    a = b := by
  simp only [Rule.equalsNum, Bool.and_eq_true, decide_eq_true_iff] at h
  rw [List.Pairwise.insertionSort_eq ha, List.Pairwise.insertionSort_eq hb] at h
  exact h.2

theorem day_sorted {a b : List (Int × Int)} (ha : a.Pairwise Rule.dayLe) (hb : b.Pairwise Rule.dayLe)
    (h : Rule.equalsDayNum a b = true) : a = b := by
  simp only [Rule.equalsDayNum, Bool.and_eq_true, decide_eq_true_iff] at h
  rw [List.Pairwise.insertionSort_eq ha, List.Pairwise.insertionSort_eq hb] at h
  exact h.2

theorem rule_key {env : DateTime.TzEnv} {K : DateTime → Prop}
    (hK : ∀ t u, K t → K u → t.eq env u = true → t.hashKey env = u.hashKey env) {r s : Rule}
    (hr : ∀ u, r.untilDate = some u → K u) (hs : ∀ u, s.untilDate = some u → K u) (hr' : RuleSorted r) (hs' : RuleSorted s)
    (h : r.equals env s = true) : r.hashKey env = s.hashKey env := by
  simp only [Rule.equals, Bool.and_eq_true, decide_eq_true_iff] at h
  obtain ⟨⟨⟨⟨⟨⟨⟨⟨⟨⟨⟨⟨⟨⟨⟨h1, h2⟩, h3⟩, h4⟩, h5⟩, h6⟩, h7⟩, h8⟩, h9⟩, h10⟩, h11⟩, h12⟩, h13⟩, h14⟩, h15⟩, h16⟩ := h
  obtain ⟨r1, r2, r3, r4, r5, r6, r7, r8, r9⟩ := hr'
  obtain ⟨s1, s2, s3, s4, s5, s6, s7, s8, s9⟩ := hs'
  have hu : r.untilDate.map (DateTime.hashKey env) = s.untilDate.map (DateTime.hashKey env) := by
    cases h : r.untilDate <;> cases h' : s.untilDate <;> simp only [h, h', Rule.equalsUntil, Bool.false_eq_true] at h5
    · rfl
    · simp only [Option.map_some, Option.some.injEq]
      exact hK _ _ (hr _ h) (hs _ h') h5
  simp only [Rule.hashKey, Prod.mk.injEq]
  exact ⟨h1, h2, h3, h4, hu, h6, num_sorted r1 s1 h7, num_sorted r2 s2 h8, num_sorted r3 s3 h9, day_sorted r4 s4 h10,
    num_sorted r5 s5 h11, num_sorted r6 s6 h12, num_sorted r7 s7 h13, num_sorted r8 s8 h14, num_sorted r9 s9 h15, h16⟩

theorem leaf_key {env : DateTime.TzEnv} {K : DateTime → Prop}
    (hK : ∀ t u, K t → K u → t.eq env u = true → t.hashKey env = u.hashKey env) {a b : Leaf} (ha : LeafIn K a) (hb : LeafIn K b)
    (ha' : LeafSorted a) (hb' : LeafSorted b) (h : SameLeaf env a b) : a.key env = b.key env := by
  cases h with
  | duration _ _ h => simp [Leaf.key, h]
  | period _ _ h h' => simp [Leaf.key, hK _ _ ha.1 hb.1 h, hK _ _ ha.2 hb.2 h']
  | rule _ _ h => simp only [Leaf.key, rule_key hK ha hb ha' hb' h]
  | date _ _ hd h => simp [Leaf.key, Leaf.type, hd, hK _ _ ha hb h]
  | _ => rfl

theorem val_key {env : DateTime.TzEnv} {K : DateTime → Prop}
    (hK : ∀ t u, K t → K u → t.eq env u = true → t.hashKey env = u.hashKey env) {a b : Val} (ha : ValIn K a) (hb : ValIn K b)
    (ha' : ValSorted a) (hb' : ValSorted b) (h : SameVal env a b) : a.key env = b.key env := by
  cases h with
  | one h => exact leaf_key hK ha hb ha' hb' h
  | @multi t l m h =>
    simp only [Val.key, Key.tuple.injEq]
    simp only [ValIn, ValSorted] at ha hb ha' hb'
    induction h with
    | nil => rfl
    | cons h1 _ ih =>
      rw [List.map_cons, List.map_cons, leaf_key hK (ha _ List.mem_cons_self) (hb _ List.mem_cons_self)
        (ha' _ List.mem_cons_self) (hb' _ List.mem_cons_self) h1]
      rw [ih (fun x hx => ha x (List.mem_cons_of_mem _ hx)) (fun x hx => ha' x (List.mem_cons_of_mem _ hx))
        (fun x hx => hb x (List.mem_cons_of_mem _ hx)) (fun x hx => hb' x (List.mem_cons_of_mem _ hx))]

theorem mem_keys {ps qs : List Param}
    (h : ∀ key : List Char, (ps.filter fun a => decide (upper a.name = key)).map (·.values) =
      (qs.filter fun a => decide (upper a.name = key)).map (·.values)) {k : List Char} (hk : k ∈ ps.map Param.key) :
    k ∈ qs.map Param.key := by
  obtain ⟨p, hp, rfl⟩ := List.mem_map.mp hk
  have h1 := congrArg List.length (h p.key)
  rw [List.length_map, List.length_map] at h1
  have h2 : p ∈ ps.filter fun a => decide (upper a.name = p.key) := List.mem_filter.2 ⟨hp, by simp [Param.key]⟩
  have h3 : 0 < (qs.filter fun a => decide (upper a.name = p.key)).length := h1 ▸ List.length_pos_of_mem h2
  obtain ⟨q, hq⟩ := List.exists_mem_of_length_pos h3
  obtain ⟨hq1, hq2⟩ := List.mem_filter.1 hq
  exact List.mem_map.2 ⟨q, hq1, of_decide_eq_true hq2⟩

theorem params_key {ps qs : List Param}
    (h : ∀ key : List Char, (ps.filter fun a => decide (upper a.name = key)).map (·.values) =
      (qs.filter fun a => decide (upper a.name = key)).map (·.values)) : paramsKey ps = paramsKey qs := by
  have hs : sortedKeys ps = sortedKeys qs := by
    unfold sortedKeys
    have hp : (ps.map Param.key).dedup.Perm (qs.map Param.key).dedup := by
      rw [List.perm_ext_iff_of_nodup (List.nodup_dedup _) (List.nodup_dedup _)]
      intro k
      rw [List.mem_dedup, List.mem_dedup]
      exact ⟨mem_keys h, mem_keys fun k => (h k).symm⟩
    refine List.Perm.eq_of_pairwise ?_ (List.pairwise_insertionSort _ _) (List.pairwise_insertionSort _ _)
      (((List.perm_insertionSort _ _).trans hp).trans (List.perm_insertionSort _ _).symm)
    intro a b _ _ h1 h2
    exact le_antisymm h1 h2
  unfold paramsKey
  rw [hs]
  congr 1
  refine List.map_congr_left fun k _ => ?_
  congr 1
  have hf : ∀ l : List Param, (l.filter fun p => decide (p.key = k)).map paramKey =
      ((l.filter fun a => decide (upper a.name = k)).map (·.values)).map
        fun v => Key.tuple [.str k, .tuple (v.map .str)] := by
    intro l
    rw [List.map_map]
    refine List.map_congr_left fun p hp => ?_
    have : upper p.name = k := of_decide_eq_true (List.mem_filter.1 hp).2
    simp [paramKey, this]
  rw [hf, hf, h k]

end P110
open P110

/-- C110, which properties are `==`: exactly those with the same name, the same value and the same parameters. -/
theorem C110_exact (env : DateTime.TzEnv) (p q : VProp) : icalEq env p q = true ↔ SameProp env p q := by
  simp only [icalEq, Bool.and_eq_true, decide_eq_true_iff, val_eq, params_eq]
  exact ⟨fun h => ⟨h.1.1, h.1.2, h.2⟩, fun h => ⟨⟨h.1, h.2⟩, h.3⟩⟩

/-- C110 (partial), vCard: the same, without the group (`C110_fails_group`). -/
theorem C110_vcard_partial (env : DateTime.TzEnv) (p q : VProp) : vcardEq env p q = true ↔ SameProp env p q := by
  rw [← C110_exact]
  simp [vcardEq, icalEq]

/-- C110: `==` is reflexive and symmetric, whatever the values. -/
theorem C110_symmetric (env : DateTime.TzEnv) (p q : VProp) :
    icalEq env p p = true ∧ (icalEq env p q = true → icalEq env q p = true) := by
  rw [C110_exact, C110_exact, C110_exact]
  refine ⟨⟨rfl, ?_, fun _ => rfl⟩, fun h => ⟨h.1.symm, ?_, fun k => (h.3 k).symm⟩⟩
  · cases p.value with
    | one a => exact .one (leaf_refl env a)
    | multi t l => exact .multi t (List.forall₂_same.2 fun a _ => leaf_refl env a)
  · have hv := h.2
    generalize p.value = a at hv
    generalize q.value = b at hv
    cases hv with
    | one h => exact .one (leaf_symm h)
    | multi t h => exact .multi t ((List.Forall₂.imp (fun _ _ => leaf_symm) h).flip)

/-- C110 (partial): `==` is transitive, if the dates and date-times in the values are of a family on which `==` is.  Missing:
the others, as for components (`C61_fails_floating`). -/
theorem C110_transitive_partial {env : DateTime.TzEnv} {K : DateTime → Prop} (hK : DateTime.Transitive env K) (p q r : VProp)
    (hp : ValIn K p.value) (hq : ValIn K q.value) (hr : ValIn K r.value) (h : icalEq env p q = true)
    (h' : icalEq env q r = true) : icalEq env p r = true := by
  rw [C110_exact] at h h' ⊢
  refine ⟨h.1.trans h'.1, ?_, fun k => (h.3 k).trans (h'.3 k)⟩
  have h1 := h.2
  have h2 := h'.2
  generalize p.value = a at *
  generalize q.value = b at *
  generalize r.value = c at *
  cases h1 with
  | one h1 => cases h2 with | one h2 => exact .one (leaf_trans hK hp hq hr h1 h2)
  | multi t h1 => cases h2 with | multi _ h2 => exact .multi _ (leaves_trans hK hp hq hr h1 h2)

/-- C110 (partial): properties that are `==` have one hash, if the dates and date-times in the values are of a family on which
that is so (C18), and the lists of recurrence rules are in ascending order.  Missing: other dates (`C18_fails_dates`,
`C18_fails_floating`), other rules (`C45_fails_hash`, `C110_fails_rule`). -/
theorem C110_hash_partial {env : DateTime.TzEnv} {K : DateTime → Prop}
    (hK : ∀ t u, K t → K u → t.eq env u = true → t.hashKey env = u.hashKey env) (p q : VProp) (hp : ValIn K p.value)
    (hq : ValIn K q.value) (hp' : ValSorted p.value) (hq' : ValSorted q.value) (h : icalEq env p q = true) :
    icalKey env p = icalKey env q ∧ (p.group = q.group → vcardKey env p = vcardKey env q) := by
  rw [C110_exact] at h
  have h1 := val_key hK hp hq hp' hq' h.2
  have h2 := params_key h.3
  exact ⟨by rw [icalKey, icalKey, h.1, h1, h2], fun hg => by rw [vcardKey, vcardKey, hg, h.1, h1, h2]⟩

/-- C110 fails: two properties of a vCard that differ in nothing but the group are `==`, and have different hashes. -/
theorem C110_fails_group (env : DateTime.TzEnv) (p : VProp) (g : Option (List Char)) (hg : g ≠ p.group) :
    vcardEq env p { p with group := g } = true ∧ vcardKey env p ≠ vcardKey env { p with group := g } := by
  constructor
  · rw [C110_vcard_partial]
    exact (C110_exact ..).1 (C110_symmetric env p p).1
  · intro h
    simp only [vcardKey, Key.tuple.injEq, List.cons.injEq, and_true] at h
    apply hg
    cases g <;> cases hp : p.group <;> simp [hp] at h ⊢
    exact h.symm

/-- C110 fails: the names of properties are not case sensitive, but properties with names that differ in case are not `==`. -/
theorem C110_fails_case (env : DateTime.TzEnv) (p : VProp) (name : List Char) (hn : name ≠ p.name) :
    icalEq env p { p with name := name } = false := by
  rw [← Bool.not_eq_true, C110_exact]
  exact fun h => hn h.1.symm

/-- C110 fails: two properties with one and the same text are not `==`. -/
theorem C110_fails_text (env : DateTime.TzEnv) :
    let p (vs : List (List Char)) : VProp := ⟨none, "X".toList, [⟨"A".toList, vs⟩], .one (.str .text [])⟩
    let line (vs : List (List Char)) : PropText.Line := ⟨none, "X".toList, [⟨"A".toList, vs⟩], []⟩
    let ab := ["a".toList, "b".toList]
    let ba := ["b".toList, "a".toList]
    PropText.generate (line ab) = PropText.generate (line ba) ∧ icalEq env (p ab) (p ba) = false := by
  refine ⟨by decide +kernel, ?_⟩
  rw [← Bool.not_eq_true, C110_exact]
  intro h
  have := h.3 "A".toList
  revert this
  decide +kernel

/-- C110 fails: recurrence rules with one list in two orders. -/
theorem C110_fails_rule (env : DateTime.TzEnv) (p : VProp) :
    let a : VProp := { p with value := .one (.rule { freq := .daily, byMonth := [1, 2] }) }
    let b : VProp := { p with value := .one (.rule { freq := .daily, byMonth := [2, 1] }) }
    icalEq env a b = true ∧ icalKey env a ≠ icalKey env b := by
  constructor
  · rw [C110_exact]
    refine ⟨rfl, .one (.rule _ _ ?_), fun _ => rfl⟩
    simp only [Rule.equals, Rule.equalsUntil]
    decide +kernel
  · simp [icalKey, Val.key, Leaf.key, Rule.hashKey]

/-- C110 fails: any duration and a copy of it are `==` and `!=` at once, and so are any period and a copy of it. -/
theorem C110_fails_ne (env : DateTime.TzEnv) (d : Duration) (p : Period) :
    (∃ a b : Obj Duration, a.val = d ∧ b.val = d ∧ a.val.eq b.val = true ∧ a.ne b = true) ∧
    (∃ a b : Obj Period, a.val = p ∧ b.val = p ∧ a.val.eq env b.val = true ∧ a.ne b = true) :=
  ⟨⟨⟨0, d⟩, ⟨1, d⟩, rfl, rfl, by simp [Duration.eq], by simp [Obj.ne]⟩,
    ⟨⟨0, p⟩, ⟨1, p⟩, rfl, rfl, by simp [Period.eq, date_refl], by simp [Obj.ne]⟩⟩

/-- A family of date-times for the hash: those that are valid and not floating. -/
example (env : DateTime.TzEnv) : ∀ t u : DateTime, (t.Valid ∧ t.dateOnly = false ∧ t.floating = false) →
    (u.Valid ∧ u.dateOnly = false ∧ u.floating = false) → t.eq env u = true → t.hashKey env = u.hashKey env :=
  fun t u ht hu h => DateTime.C18_hash_partial env t u ht.1 hu.1 (ht.2.1.trans hu.2.1.symm) (.inr ⟨ht.2.1, ht.2.2, hu.2.2⟩) h

/-- `DURATION;X=1:P1D` and `DURATION;x=1:PT24H` are `==`; with `PT23H` not. -/
example (env : DateTime.TzEnv) :
    let p (d : Duration) (x : String) : VProp := ⟨none, "DURATION".toList, [⟨x.toList, ["1".toList]⟩], .one (.duration d)⟩
    icalEq env (p (.ofAmounts 0 1 0 0 0) "X") (p (.ofSeconds 86400) "x") = true ∧
    icalEq env (p (.ofAmounts 0 1 0 0 0) "X") (p (.ofSeconds 82800) "x") = false :=
  ⟨by simp only [icalEq, Val.eq, Leaf.eq]; decide +kernel, by simp only [icalEq, Val.eq, Leaf.eq]; decide +kernel⟩

end PyCal
