import Verif.Model.Cards
import Verif.Props.C40_Nesting

/-!
# C100: components read into a calendar that is there already
-/

namespace Spec
open PyCal Cont

/-- The lines of a calendar of which only the components count: the components in them. -/
inductive Items (env : Cont.Env) : List (List Char) → List Component → Prop
  | nil : Items env [] []
  | skip {l : List Char} {ls ss} (hb : ¬ Begins l) (he : l ≠ "END:".toList ++ env.container)
      (h0 : l = [] → env.blankRaise = false) : Items env ls ss → Items env (l :: ls) ss
  | comp (t : List Char) {body ps ss' c ls ss} (hc : t ≠ env.container) (hu : t ≠ "UNKNOWN".toList)
      (hf : env.finalise (.mk t ps ss') = some c) (ha : Takes env.container c.type) :
      Body env false t body ps ss' → Items env ls ss →
      Items env (("BEGIN:".toList ++ t) :: (body ++ ("END:".toList ++ t) :: ls)) (c :: ss)

end Spec

namespace PyCal
open Cont Spec AddTo

namespace Add100

theorem run_append (env : Cont.Env) (a b : List (List Char)) : ∀ (st st1 : St),
    AddTo.run env st a = (st1, none) → st1.mode ≠ .got → AddTo.run env st (a ++ b) = AddTo.run env st1 b := by
  induction a with
  | nil => intro st st1 h _; rw [AddTo.run] at h; cases h; rfl
  | cons l a ih =>
    intro st st1 h hm
    rw [List.cons_append, AddTo.run]
    rw [AddTo.run] at h
    split at h
    · rename_i hg
      cases h
      exact absurd hg hm
    · rename_i hg
      rw [if_neg hg]
      split at h
      · exact ih _ _ h hm
      · cases h

/-- What a state is after properties and components were read into the component being read. -/
def into (st : St) (f : Frame) (rest : List Frame) (ps : List CProp) (ss : List Component) : St :=
  { st with stack := ⟨f.type, f.props ++ ps, f.subs ++ ss⟩ :: rest }

theorem prefix_begin (t : List Char) : beginText.isPrefixOf ("BEGIN:".toList ++ t) = true := by
  rw [Nest40.begins_eq]; exact ⟨t, rfl⟩

theorem prefix_end (t : List Char) : beginText.isPrefixOf ("END:".toList ++ t) = false := by
  rw [← Bool.not_eq_true, Nest40.begins_eq]; exact Nest40.not_begins_end _

theorem not_prefix {l : List Char} (h : ¬ Begins l) : beginText.isPrefixOf l = false := by
  rw [← Bool.not_eq_true, Nest40.begins_eq]; exact h

theorem step_begin {env : Cont.Env} {st : St} {t : List Char} (hl : st.mode = .get)
    (hu : t ≠ "UNKNOWN".toList) :
    AddTo.step env st ("BEGIN:".toList ++ t) = .ok { st with stack := ⟨t, [], []⟩ :: st.stack } := by
  unfold AddTo.step
  rw [hl, prefix_begin]
  simp only [if_true]
  have : ("BEGIN:".toList ++ t).drop 6 = t := rfl
  rw [this, makeType, if_neg hu]

theorem nil_ne (t : List Char) : ([] : List Char) ≠ endText ++ t := by simp [endText]

theorem step_blank {env : Cont.Env} {st : St} {f : Frame} {rest : List Frame} (hl : st.mode = .get)
    (hs : st.stack = f :: rest) (hb : env.blankRaise = false) : AddTo.step env st [] = .ok st := by
  unfold AddTo.step
  rw [hl, hs]
  simp only [show beginText.isPrefixOf [] = false from rfl, Bool.false_eq_true, if_false,
    if_neg (nil_ne _), if_true, AddTo.blank, hb]

theorem step_prop {env : Cont.Env} {st : St} {f : Frame} {rest : List Frame} {l : List Char} {p : CProp}
    (hl : st.mode = .get) (hs : st.stack = f :: rest) (h0 : l ≠ []) (hb : ¬ Begins l) (he : ¬ Ends l)
    (hp : env.parseProp l = some p) : AddTo.step env st l = .ok (into st f rest [p] []) := by
  have h2 : ∀ t, l ≠ endText ++ t := by rintro t rfl; exact he (Nest40.ends_end t)
  obtain ⟨mode, root, stack⟩ := st
  simp only at hl hs
  subst hl hs
  unfold AddTo.step
  simp only [not_prefix hb, Bool.false_eq_true, if_false, if_neg (h2 _), if_neg h0, hp, into,
    List.append_nil]

theorem step_end {env : Cont.Env} {st : St} {f g : Frame} {rest : List Frame} {c : Component}
    (hl : st.mode = .get) (hs : st.stack = f :: g :: rest) (hc : f.type ≠ env.container)
    (hf : env.finalise (.mk f.type f.props f.subs) = some c) (ht : Takes g.type c.type) :
    AddTo.step env st ("END:".toList ++ f.type) = .ok (into st g rest [] [c]) := by
  have h2 : ¬ "END:".toList ++ f.type = endText ++ env.container := fun h => hc (Nest40.end_inj h)
  obtain ⟨mode, root, stack⟩ := st
  simp only at hl hs
  subst hl hs
  unfold AddTo.step
  simp only [prefix_end, Bool.false_eq_true, if_false, if_neg h2]
  rw [if_pos (show "END:".toList ++ f.type = endText ++ f.type from rfl), AddTo.close]
  simp only [hf, addSub, if_pos ((Nest40.takes_iff _ _).mpr ht), into, List.append_nil]
  rfl

theorem step_end_top {env : Cont.Env} {st : St} {f : Frame} {c : Component}
    (hl : st.mode = .get) (hs : st.stack = [f]) (hc : f.type ≠ env.container)
    (hf : env.finalise (.mk f.type f.props f.subs) = some c) (ht : Takes st.root.type c.type) :
    AddTo.step env st ("END:".toList ++ f.type) =
      .ok { st with root := { st.root with subs := st.root.subs ++ [c] }, stack := [] } := by
  have h2 : ¬ "END:".toList ++ f.type = endText ++ env.container := fun h => hc (Nest40.end_inj h)
  obtain ⟨mode, root, stack⟩ := st
  simp only at hl hs
  subst hl hs
  unfold AddTo.step
  simp only [prefix_end, Bool.false_eq_true, if_false, if_neg h2]
  rw [if_pos (show "END:".toList ++ f.type = endText ++ f.type from rfl), AddTo.close]
  simp only [hf, addSub, if_pos ((Nest40.takes_iff _ _).mpr ht)]
  rfl

theorem into_into (st : St) (f : Frame) (rest : List Frame) (ps qs : List CProp)
    (ss rs : List Component) :
    into (into st f rest ps ss) ⟨f.type, f.props ++ ps, f.subs ++ ss⟩ rest qs rs =
      into st f rest (ps ++ qs) (ss ++ rs) := by
  simp [into]

theorem run_body {env : Cont.Env} {top : Bool} {t : List Char} {ls : List (List Char)}
    {ps : List CProp} {ss : List Component} (h : Body env top t ls ps ss) : ∀ (st : St) (f : Frame)
    (rest : List Frame), st.mode = .get → st.stack = f :: rest → f.type = t →
      AddTo.run env st ls = (into st f rest ps ss, none) := by
  induction h with
  | nil =>
    intro st f rest _ hs _
    obtain ⟨mode, root, stack⟩ := st
    simp only at hs
    subst hs
    rw [AddTo.run]
    simp [into]
  | blank hb _ ih =>
    intro st f rest hl hs ht
    rw [AddTo.run, if_neg (by rw [hl]; simp), step_blank hl hs hb]
    exact ih st f rest hl hs ht
  | prop h0 hb he hp _ _ ih =>
    intro st f rest hl hs ht
    rw [AddTo.run, if_neg (by rw [hl]; simp), step_prop hl hs h0 hb he hp]
    simp only
    rw [ih (into st f rest [_] []) ⟨f.type, f.props ++ [_], f.subs ++ []⟩ rest hl rfl ht, into_into]
    simp
  | @comp top t t' body ps' ss' c ls ps ss hc hu hf ha _ _ ih1 ih2 =>
    intro st f rest hl hs ht
    have h1 := ih1 { st with stack := ⟨t', [], []⟩ :: st.stack } ⟨t', [], []⟩ st.stack hl rfl rfl
    rw [AddTo.run, if_neg (by rw [hl]; simp), step_begin hl hu]
    simp only
    rw [run_append env _ _ _ _ h1 (by simp [into, hl]), AddTo.run, if_neg (by simp [into, hl])]
    have hstep := step_end (env := env)
      (st := into { st with stack := ⟨t', [], []⟩ :: st.stack } ⟨t', [], []⟩ st.stack ps' ss')
      (f := ⟨t', ps', ss'⟩) (g := f) (rest := rest) (c := c) hl (by simp [into, hs]) hc hf
      (by rw [ht]; exact ha)
    rw [hstep]
    simp only
    have h2 := ih2 (into (into { st with stack := ⟨t', [], []⟩ :: st.stack } ⟨t', [], []⟩ st.stack ps' ss')
      f rest [] [c]) ⟨f.type, f.props ++ [], f.subs ++ [c]⟩ rest hl rfl ht
    rw [h2, into_into]
    simp [into]

theorem run_items {env : Cont.Env} {ls : List (List Char)} {ss : List Component}
    (h : Items env ls ss) : ∀ st : St, st.mode = .get → st.stack = [] → st.root.type = env.container →
      AddTo.run env st ls = ({ st with root := { st.root with subs := st.root.subs ++ ss } }, none) := by
  induction h with
  | nil => intro st _ _ _; rw [AddTo.run]; simp
  | @skip l ls ss hb he h0 _ ih =>
    intro st hl hs ht
    have : AddTo.step env st l = .ok st := by
      unfold AddTo.step
      rw [hl, hs]
      simp only [not_prefix hb, Bool.false_eq_true, if_false]
      rw [if_neg (by exact he)]
      by_cases hn : l = []
      · rw [if_pos hn, AddTo.blank, if_neg (by simp [h0 hn])]
      · rw [if_neg hn]
    rw [AddTo.run, if_neg (by rw [hl]; simp), this]
    exact ih st hl hs ht
  | @comp t body ps ss' c ls ss hc hu hf ha hbody _ ih =>
    intro st hl hs ht
    have h1 := run_body hbody { st with stack := [⟨t, [], []⟩] } ⟨t, [], []⟩ [] hl rfl rfl
    rw [AddTo.run, if_neg (by rw [hl]; simp), step_begin hl hu]
    simp only [hs]
    rw [run_append env _ _ _ _ h1 (by simp [into, hl]), AddTo.run, if_neg (by simp [into, hl])]
    have hstep := step_end_top (env := env)
      (st := into { st with stack := [⟨t, [], []⟩] } ⟨t, [], []⟩ [] ps ss')
      (f := ⟨t, ps, ss'⟩) (c := c) hl (by simp [into]) hc hf (by
        have ht' : ∀ b c d e, (into { st with stack := [⟨t, [], []⟩] } b c d e).root.type = env.container :=
          fun _ _ _ _ => ht
        rw [ht']
        exact ha)
    rw [hstep]
    simp only
    rw [ih]
    · simp [into, hs]
    · exact hl
    · rfl
    · exact ht

theorem run_blank {env : Cont.Env} {ls : List (List Char)} (hb : env.blankRaise = false ∨ ls = [])
    (h : Blank ls) (st : St) (hl : st.mode = .look) : AddTo.run env st ls = (st, none) := by
  induction ls with
  | nil => rfl
  | cons l ls ih =>
    obtain rfl := h l (by simp)
    have hb' : env.blankRaise = false := by simpa using hb
    have h3 : ([] : List Char) ≠ beginText ++ env.container := by simp [beginText]
    have : AddTo.step env st [] = .ok st := by
      unfold AddTo.step
      rw [hl]
      simp only [if_neg h3, if_true, AddTo.blank, hb', Bool.false_eq_true, if_false]
    rw [AddTo.run, if_neg (by rw [hl]; simp), this]
    exact ih (.inl hb') fun l hl => h l (List.mem_cons_of_mem _ hl)

theorem start {env : Cont.Env} {b1 ls : List (List Char)} (h1 : Blank b1)
    (hb : env.blankRaise = false ∨ b1 = []) (cal : Frame) :
    AddTo.run env ⟨.look, cal, []⟩ (b1 ++ ("BEGIN:".toList ++ env.container) :: ls) =
      AddTo.run env ⟨.get, cal, []⟩ ls := by
  rw [run_append env _ _ _ _ (run_blank hb h1 _ rfl) (by simp), AddTo.run, if_neg (by simp)]
  have : AddTo.step env ⟨.look, cal, []⟩ ("BEGIN:".toList ++ env.container) = .ok ⟨.get, cal, []⟩ := by
    unfold AddTo.step
    simp only
    rw [if_pos (show "BEGIN:".toList ++ env.container = beginText ++ env.container from rfl)]
  rw [this]

end Add100
open Add100

/-- C100: of complete data the components, and nothing else, are added to the calendar after those that
it has; the result is the first of them; what comes after the data is not read. -/
theorem C100_complete (env : Cont.Env) (cal : Frame) (ht : cal.type = env.container)
    (b1 body rest : List (List Char)) (ss : List Component) (h1 : Blank b1)
    (hb : env.blankRaise = false ∨ b1 = []) (h : Items env body ss) :
    parseComponent env cal (b1 ++ ("BEGIN:".toList ++ env.container) ::
        (body ++ ("END:".toList ++ env.container) :: rest)) =
      (⟨cal.type, cal.props, cal.subs ++ ss⟩, .ok ss.head?) := by
  have hrun := run_items h ⟨.get, cal, []⟩ rfl rfl ht
  have hend : AddTo.run env ⟨.get, ⟨cal.type, cal.props, cal.subs ++ ss⟩, []⟩
      (("END:".toList ++ env.container) :: rest) =
      (⟨.got, ⟨cal.type, cal.props, cal.subs ++ ss⟩, []⟩, none) := by
    rw [AddTo.run, if_neg (by simp)]
    have : AddTo.step env ⟨.get, ⟨cal.type, cal.props, cal.subs ++ ss⟩, []⟩
        ("END:".toList ++ env.container) = .ok ⟨.got, ⟨cal.type, cal.props, cal.subs ++ ss⟩, []⟩ := by
      unfold AddTo.step
      simp only [prefix_end, Bool.false_eq_true, if_false]
      rw [if_pos (show "END:".toList ++ env.container = endText ++ env.container from rfl)]
    rw [this]
    cases rest with
    | nil => rfl
    | cons l rest => simp only; rw [AddTo.run, if_pos rfl]
  have hall : AddTo.run env ⟨.look, cal, []⟩ (b1 ++ ("BEGIN:".toList ++ env.container) ::
      (body ++ ("END:".toList ++ env.container) :: rest)) =
      (⟨.got, ⟨cal.type, cal.props, cal.subs ++ ss⟩, []⟩, none) := by
    rw [start h1 hb, run_append env _ _ _ _ hrun (by simp), hend]
  rw [parseComponent]
  simp only [hall, first]
  cases ss with
  | nil => simp
  | cons s ss => simp

namespace Add100

/-- What a step does to the calendar. -/
theorem step_root {env : Cont.Env} {st st1 : St} {l : List Char} (h : AddTo.step env st l = .ok st1) :
    (st1.root = st.root ∧ (st.stack ≠ [] → st1.stack ≠ [] ∧
        (st1.stack.getLast?.map Frame.type = st.stack.getLast?.map Frame.type))) ∨
      ∃ f c, st.stack = [f] ∧ l = endText ++ f.type ∧ st1.stack = [] ∧ st1.mode = st.mode ∧
        env.finalise (.mk f.type f.props f.subs) = some c ∧ Takes st.root.type c.type ∧
        st1.root = { st.root with subs := st.root.subs ++ [c] } := by
  unfold AddTo.step at h
  split at h
  · cases h; exact .inl ⟨rfl, fun h => ⟨h, rfl⟩⟩
  · split at h
    · cases h; exact .inl ⟨rfl, fun h => ⟨h, rfl⟩⟩
    · split at h
      · rw [AddTo.blank] at h
        split at h
        · cases h
        · cases h; exact .inl ⟨rfl, fun h => ⟨h, rfl⟩⟩
      · cases h
  · split at h
    · cases h
      refine .inl ⟨rfl, fun hs => ⟨by simp, ?_⟩⟩
      simp only [List.getLast?_cons]
      obtain ⟨x, hx⟩ := Option.isSome_iff_exists.mp (List.getLast?_isSome.mpr hs)
      rw [hx]
      rfl
    · split at h
      · cases h; exact .inl ⟨rfl, fun h => ⟨h, rfl⟩⟩
      · split at h
        · split at h
          · rw [AddTo.blank] at h
            split at h
            · cases h
            · cases h; exact .inl ⟨rfl, fun h => ⟨h, rfl⟩⟩
          · cases h; exact .inl ⟨rfl, fun h => ⟨h, rfl⟩⟩
        · rename_i f rest hs
          split at h
          · rename_i hend
            rw [AddTo.close] at h
            split at h
            · cases h
            · rename_i c hf
              cases rest with
              | nil =>
                simp only at h
                rw [addSub] at h
                split at h
                · rename_i ha
                  cases h
                  exact .inr ⟨f, c, hs, hend, rfl, rfl, hf, (Nest40.takes_iff _ _).mp ha, rfl⟩
                · cases h
              | cons g rest =>
                simp only at h
                rw [addSub] at h
                split at h
                · cases h
                  refine .inl ⟨rfl, fun _ => ⟨by simp, ?_⟩⟩
                  rw [hs]
                  cases rest <;> simp [List.getLast?_cons]
                · cases h
          · split at h
            · rw [AddTo.blank] at h
              split at h
              · cases h
              · cases h; exact .inl ⟨rfl, fun h => ⟨h, rfl⟩⟩
            · split at h
              · cases h
              · cases h
                refine .inl ⟨rfl, fun _ => ⟨by simp, ?_⟩⟩
                rw [hs]
                cases rest <;> simp [List.getLast?_cons]

theorem run_root {env : Cont.Env} (ls : List (List Char)) : ∀ st : St,
    (AddTo.run env st ls).1.root.type = st.root.type ∧
    (AddTo.run env st ls).1.root.props = st.root.props ∧
    st.root.subs <+: (AddTo.run env st ls).1.root.subs := by
  induction ls with
  | nil => intro st; exact ⟨rfl, rfl, List.prefix_refl _⟩
  | cons l ls ih =>
    intro st
    rw [AddTo.run]
    split
    · exact ⟨rfl, rfl, List.prefix_refl _⟩
    · split
      · rename_i st1 h
        obtain ⟨h1, h2, h3⟩ := ih st1
        rcases step_root h with ⟨h, -⟩ | ⟨f, c, -, -, -, -, -, -, h⟩
        · rw [h] at h1 h2 h3
          exact ⟨h1, h2, h3⟩
        · rw [h] at h1 h2 h3
          exact ⟨h1, h2, (List.prefix_append _ _).trans h3⟩
      · exact ⟨rfl, rfl, List.prefix_refl _⟩

end Add100

/-- C100: whatever the data are, also if there is an exception, the calendar keeps its properties and
the components that it had, in their order; components are only added after them. -/
theorem C100_keeps (env : Cont.Env) (cal : Frame) (ls : List (List Char)) :
    (parseComponent env cal ls).1.type = cal.type ∧ (parseComponent env cal ls).1.props = cal.props ∧
      cal.subs <+: (parseComponent env cal ls).1.subs := by
  have := run_root (env := env) ls ⟨.look, cal, []⟩
  unfold parseComponent
  dsimp only
  split <;> exact this

/-- C100: if components were added, the result is the first of them. -/
theorem C100_result (env : Cont.Env) (cal : Frame) (ls : List (List Char)) (r : Option Component)
    (h : (parseComponent env cal ls).2 = .ok r) (hn : (parseComponent env cal ls).1.subs ≠ cal.subs) :
    ∃ c ss, r = some c ∧ (parseComponent env cal ls).1.subs = cal.subs ++ c :: ss := by
  obtain ⟨-, -, ss, hs⟩ := C100_keeps env cal ls
  rw [← hs] at hn ⊢
  cases ss with
  | nil => exact absurd (by simp) hn
  | cons c ss =>
    refine ⟨c, ss, ?_, rfl⟩
    unfold parseComponent at h hs
    dsimp only at h hs
    split at h
    · cases h
    · rename_i he
      simp only [he] at hs
      simp only [Except.ok.injEq] at h
      rw [← h, first, ← hs]
      simp

/-- C100 fails: if the data end within a component, there is no exception; the result is the component as
far as it was read, and it is not in the calendar. -/
theorem C100_fails_truncated (env : Cont.Env) (cal : Frame) (t : List Char) (body : List (List Char))
    (ps : List CProp) (ss : List Component) (hu : t ≠ "UNKNOWN".toList) (h : Body env false t body ps ss) :
    parseComponent env cal (("BEGIN:".toList ++ env.container) :: ("BEGIN:".toList ++ t) :: body) =
      (cal, .ok (some (.mk t ps ss))) := by
  have hs := start (env := env) (b1 := []) (ls := ("BEGIN:".toList ++ t) :: body) (by simp [Blank])
    (.inr rfl) cal
  rw [List.nil_append] at hs
  conv at hs => rhs; rw [AddTo.run, if_neg (by simp), step_begin rfl hu]
  simp only at hs
  rw [run_body h _ ⟨t, [], []⟩ [] rfl rfl rfl] at hs
  rw [parseComponent]
  simp only [hs, first, into]
  simp

/-- C100 fails: the same with the end of a component missing before the end of the calendar. -/
theorem C100_fails_unclosed (env : Cont.Env) (cal : Frame) (t : List Char) (body : List (List Char))
    (ps : List CProp) (ss : List Component) (hu : t ≠ "UNKNOWN".toList) (h : Body env false t body ps ss) :
    parseComponent env cal (("BEGIN:".toList ++ env.container) :: ("BEGIN:".toList ++ t) ::
      (body ++ ["END:".toList ++ env.container])) = (cal, .ok (some (.mk t ps ss))) := by
  have hs := start (env := env) (b1 := []) (ls := ("BEGIN:".toList ++ t) ::
    (body ++ ["END:".toList ++ env.container])) (by simp [Blank]) (.inr rfl) cal
  rw [List.nil_append] at hs
  conv at hs => rhs; rw [AddTo.run, if_neg (by simp), step_begin rfl hu]
  simp only at hs
  conv at hs => rhs; rw [run_append env _ _ _ _ (run_body h _ ⟨t, [], []⟩ [] rfl rfl rfl) (by simp [into]), AddTo.run,
    if_neg (by simp [into])]
  have : ∀ st : St, st.mode = .get → AddTo.step env st ("END:".toList ++ env.container) =
      .ok { st with mode := .got } := by
    intro st hl
    unfold AddTo.step
    simp only [hl, prefix_end, Bool.false_eq_true, if_false]
    rw [if_pos (show "END:".toList ++ env.container = endText ++ env.container from rfl)]
  rw [this _ rfl] at hs
  conv at hs => rhs; simp only [AddTo.run]
  rw [parseComponent]
  simp only [hs, first, into]
  simp

/-- C100 fails: after an exception the calendar has the components that came before the error; and an
error in a property is not one of those that `cacheTimezone` turns into `NoTimezoneInDatabase`. -/
theorem C100_fails_exception (env : Cont.Env) (cal : Frame) (ht : cal.type = env.container)
    (items body rest : List (List Char)) (cs : List Component) (t bad : List Char)
    (ps : List CProp) (ss : List Component) (hi : Items env items cs) (hu : t ≠ "UNKNOWN".toList)
    (h : Body env false t body ps ss) (h0 : bad ≠ []) (hb : ¬ Begins bad) (he : ¬ Ends bad)
    (hp : env.parseProp bad = none) :
    cacheFile env cal (some (("BEGIN:".toList ++ env.container) ::
      (items ++ ("BEGIN:".toList ++ t) :: (body ++ bad :: rest)))) =
      (⟨cal.type, cal.props, cal.subs ++ cs⟩, .other .invalidProperty) := by
  have hs := start (env := env) (b1 := []) (ls := items ++ ("BEGIN:".toList ++ t) :: (body ++ bad :: rest))
    (by simp [Blank]) (.inr rfl) cal
  rw [List.nil_append, run_append env _ _ _ _ (run_items hi ⟨.get, cal, []⟩ rfl rfl ht) (by simp)] at hs
  conv at hs => rhs; rw [AddTo.run, if_neg (by simp), step_begin rfl hu]
  simp only at hs
  conv at hs => rhs; rw [run_append env _ _ _ _ (run_body h _ ⟨t, [], []⟩ [] rfl rfl rfl) (by simp [into]), AddTo.run,
    if_neg (by simp [into])]
  have hstep : ∀ (st : St) f, st.mode = .get → st.stack = [f] →
      AddTo.step env st bad = .error .invalidProperty := by
    intro st f hl hk
    have h2 : ∀ t, bad ≠ endText ++ t := by rintro t rfl; exact he (Nest40.ends_end t)
    unfold AddTo.step
    rw [hl, hk]
    simp only [not_prefix hb, Bool.false_eq_true, if_false, if_neg (h2 _), if_neg h0, hp]
  rw [hstep _ _ rfl rfl] at hs
  rw [cacheFile]
  simp only [parseComponent, hs, into]

/-- What `cacheTimezone` makes of a file: it returns just if the text is read, and raises `NoTimezoneInDatabase` just if
there is no file or its text is not that of a calendar; the calendar of the database is then as the reader left it. -/
theorem C100_file (env : Cont.Env) (cal : Frame) (file : Option (List (List Char))) :
    ((cacheFile env cal file).2 = .done ↔ ∃ ls c, file = some ls ∧ (parseComponent env cal ls).2 = .ok c) ∧
    ((cacheFile env cal file).2 = .noTimezone ↔
      file = none ∨ ∃ ls, file = some ls ∧ (parseComponent env cal ls).2 = .error .invalidData) ∧
    (cacheFile env cal file).1 = (match file with | none => cal | some ls => (parseComponent env cal ls).1) := by
  cases file with
  | none => simp [cacheFile]
  | some ls =>
    simp only [cacheFile, Option.some.injEq, exists_and_left, exists_eq_left', exists_eq_left, reduceCtorEq, false_or]
    generalize parseComponent env cal ls = q at *
    obtain ⟨c, r⟩ := q
    cases r with
    | ok r => simp
    | error e => cases e <;> simp

/-- In particular a file that does not begin with the beginning of a calendar, and leaves the calendar as it was. -/
theorem C100_noCalendar (env : Cont.Env) (cal : Frame) (l : List Char) (ls : List (List Char)) (h0 : l ≠ [])
    (h : l ≠ "BEGIN:".toList ++ env.container) : cacheFile env cal (some (l :: ls)) = (cal, .noTimezone) := by
  have h' : l ≠ beginText ++ env.container := h
  simp [cacheFile, parseComponent, AddTo.run, AddTo.step, h', h0]

namespace Add100

/-- The two readers side by side: `m` is in the calendar that was there already. -/
structure Both (cal : Frame) (a : PSt) (b : St) : Prop where
  mode : b.mode = if a.look then .look else .get
  stack : b.stack = a.stack
  root : b.root = ⟨cal.type, cal.props, cal.subs ++ a.root.subs⟩
  type : a.root.type = cal.type

theorem both_step {env : Cont.Env} (hn : env.nested = true) {cal : Frame} {a a1 : PSt} {b : St}
    {l : List Char} (h : Both cal a b) (hs : Cont.step env a l = .ok a1)
    (hl : ¬ (a.look = false ∧ l = "END:".toList ++ env.container)) :
    ∃ b1, AddTo.step env b l = .ok b1 ∧ Both cal a1 b1 := by
  obtain ⟨look, result, root, stack⟩ := a
  obtain ⟨mode, broot, bstack⟩ := b
  obtain ⟨hm, hst, hr, hty⟩ := h
  simp only at hm hst hr hty hl
  subst hm hr
  rw [hst]
  clear hst bstack
  unfold Cont.step at hs
  unfold AddTo.step
  cases look with
  | true =>
    simp only [if_true] at hs ⊢
    split at hs
    · rename_i he
      cases hs
      exact ⟨_, by rw [if_pos he], rfl, rfl, rfl, hty⟩
    · rename_i he
      rw [if_neg he]
      split at hs
      · rename_i h0
        rw [if_pos h0]
        rw [Cont.blankLine] at hs
        rw [AddTo.blank]
        split at hs
        · cases hs
        · rename_i hb
          cases hs
          exact ⟨_, by rw [if_neg hb], rfl, rfl, rfl, hty⟩
      · cases hs
  | false =>
    simp only [Bool.false_eq_true, if_false, hn, Bool.and_true] at hs ⊢
    split at hs
    · rename_i hb
      cases hs
      exact ⟨_, by rw [if_pos hb], rfl, rfl, rfl, hty⟩
    · rename_i hb
      rw [if_neg hb]
      have hle : ¬ l = endText ++ env.container := fun e => hl ⟨rfl, e⟩
      rw [if_neg hle] at hs ⊢
      cases stack with
      | nil =>
        simp only at hs ⊢
        split at hs
        · rename_i h0
          rw [if_pos h0]
          rw [Cont.blankLine] at hs
          rw [AddTo.blank]
          split at hs
          · cases hs
          · rename_i hb
            cases hs
            exact ⟨_, by rw [if_neg hb], rfl, rfl, rfl, hty⟩
        · rename_i h0
          rw [if_neg h0]
          rw [propLine] at hs
          split at hs
          · cases hs
          · simp only at hs
            split at hs
            · cases hs
              exact ⟨_, rfl, rfl, rfl, rfl, hty⟩
            · cases hs
      | cons f rest =>
        simp only at hs ⊢
        split at hs
        · rename_i he
          rw [if_pos he]
          rw [closeFrame] at hs
          rw [AddTo.close]
          split at hs
          · cases hs
          · rename_i c hf
            simp only [hf]
            cases rest with
            | nil =>
              simp only [addSub] at hs ⊢
              rw [hty] at hs
              split at hs
              · rename_i ha
                cases hs
                refine ⟨_, by rw [if_pos ha]; rfl, rfl, rfl, ?_, rfl⟩
                simp
              · cases hs
            | cons g rest =>
              simp only [addSub] at hs ⊢
              split at hs
              · rename_i ha
                cases hs
                exact ⟨_, by rw [if_pos ha]; rfl, rfl, rfl, rfl, hty⟩
              · cases hs
        · rename_i he
          rw [if_neg he]
          split at hs
          · rename_i h0
            rw [if_pos h0]
            rw [Cont.blankLine] at hs
            rw [AddTo.blank]
            split at hs
            · cases hs
            · rename_i hb
              cases hs
              exact ⟨_, by rw [if_neg hb], rfl, rfl, rfl, hty⟩
          · rename_i h0
            rw [if_neg h0]
            rw [propLine] at hs
            split at hs
            · cases hs
            · rename_i p hp
              cases hs
              exact ⟨_, by rw [hp], rfl, rfl, rfl, hty⟩

theorem step_subs {env : Cont.Env} {a a1 : PSt} {l : List Char} (hs : Cont.step env a l = .ok a1) :
    a.root.subs <+: a1.root.subs ∧ a1.root.type = a.root.type := by
  obtain ⟨look, result, root, stack⟩ := a
  unfold Cont.step at hs
  have hbl : ∀ {st : PSt}, blankLine env st = .ok a1 → a1 = st := by
    intro st h
    rw [Cont.blankLine] at h
    split at h
    · cases h
    · cases h; rfl
  have hpl : ∀ {st : PSt}, propLine env st l = .ok a1 →
      a1.root.subs = st.root.subs ∧ a1.root.type = st.root.type := by
    intro st h
    rw [propLine] at h
    split at h
    · cases h
    · split at h
      · split at h
        · cases h; exact ⟨rfl, rfl⟩
        · cases h
      · cases h; exact ⟨rfl, rfl⟩
  split at hs
  · split at hs
    · cases hs; exact ⟨List.prefix_refl _, rfl⟩
    · split at hs
      · rw [hbl hs]; exact ⟨List.prefix_refl _, rfl⟩
      · cases hs
  · split at hs
    · cases hs; exact ⟨List.prefix_refl _, rfl⟩
    · split at hs
      · cases hs; exact ⟨List.prefix_refl _, rfl⟩
      · cases stack with
        | nil =>
          simp only at hs
          split at hs
          · rw [hbl hs]; exact ⟨List.prefix_refl _, rfl⟩
          · obtain ⟨h1, h2⟩ := hpl hs
            rw [h1, h2]
            exact ⟨List.prefix_refl _, rfl⟩
        | cons f rest =>
          simp only at hs
          split at hs
          · rw [closeFrame] at hs
            split at hs
            · cases hs
            · cases rest with
              | nil =>
                simp only [addSub] at hs
                split at hs
                · cases hs; exact ⟨List.prefix_append _ _, rfl⟩
                · cases hs
              | cons g rest =>
                simp only [addSub] at hs
                split at hs
                · cases hs; exact ⟨List.prefix_refl _, rfl⟩
                · cases hs
          · split at hs
            · rw [hbl hs]; exact ⟨List.prefix_refl _, rfl⟩
            · obtain ⟨h1, h2⟩ := hpl hs
              rw [h1, h2]
              exact ⟨List.prefix_refl _, rfl⟩

theorem run_subs {env : Cont.Env} (ls : List (List Char)) : ∀ {a a1 : PSt}, Cont.run env a ls = .ok a1 →
    a.root.subs <+: a1.root.subs := by
  induction ls with
  | nil => intro a a1 h; rw [Cont.run] at h; cases h; exact List.prefix_refl _
  | cons l ls ih =>
    intro a a1 h
    rw [Cont.run] at h
    split at h
    · rename_i st hs
      exact (step_subs hs).1.trans (ih h)
    · cases h

/-- Data without an end in which the reader is at the end between containers: it never was in one. -/
theorem run_outside {env : Cont.Env} (hn : env.nested = true) (ls : List (List Char))
    (he : ("END:".toList ++ env.container) ∉ ls) : ∀ {a a1 : PSt}, Cont.run env a ls = .ok a1 →
    a1.look = true → a.look = true ∧ a1.root = a.root := by
  induction ls with
  | nil => intro a a1 h hl; rw [Cont.run] at h; cases h; exact ⟨hl, rfl⟩
  | cons l ls ih =>
    intro a a1 h hl
    rw [Cont.run] at h
    split at h
    · rename_i st hs
      obtain ⟨h1, h2⟩ := ih (fun hm => he (List.mem_cons_of_mem _ hm)) h hl
      rw [h2]
      clear h ih
      by_cases ha : a.look = true
      · refine ⟨ha, ?_⟩
        unfold Cont.step at hs
        rw [if_pos ha] at hs
        split at hs
        · cases hs; simp at h1
        · split at hs
          · rw [Cont.blankLine] at hs
            split at hs
            · cases hs
            · cases hs; rfl
          · cases hs
      · exfalso
        have ha : a.look = false := by simpa using ha
        obtain ⟨b1, hb, hB⟩ := both_step (cal := ⟨a.root.type, [], []⟩) (b := ⟨.get,
          ⟨a.root.type, [], [] ++ a.root.subs⟩, a.stack⟩) hn ⟨by rw [ha]; rfl, rfl, rfl, rfl⟩ hs (by
            rintro ⟨-, rfl⟩
            exact he (by simp))
        have hm := hB.mode
        rw [h1] at hm
        unfold AddTo.step at hb
        simp only at hb
        have hbl : ∀ {st : St}, st.mode = .get → AddTo.blank env st = .ok b1 → b1.mode = .get := by
          intro st hst h
          rw [AddTo.blank] at h
          split at h
          · cases h
          · cases h; exact hst
        have hget : b1.mode = .get := by
          split at hb
          · cases hb; rfl
          · split at hb
            · rename_i hend
              exact absurd (by rw [hend]; simp; exact .inl rfl) he
            · split at hb
              · split at hb
                · exact hbl rfl hb
                · cases hb; rfl
              · split at hb
                · rw [AddTo.close] at hb
                  split at hb
                  · cases hb
                  · split at hb
                    · rw [addSub] at hb
                      split at hb
                      · cases hb; rfl
                      · cases hb
                    · rw [addSub] at hb
                      split at hb
                      · cases hb; rfl
                      · cases hb
                · split at hb
                  · exact hbl rfl hb
                  · split at hb
                    · cases hb
                    · cases hb; rfl
        rw [hget] at hm
        simp at hm
    · cases h

theorem both_run {env : Cont.Env} (hn : env.nested = true) {cal : Frame} (ls : List (List Char)) :
    ∀ {a a1 : PSt} {b : St}, Both cal a b → Cont.run env a ls = .ok a1 →
      ∃ ss, (AddTo.run env b ls).2 = none ∧ (AddTo.run env b ls).1.root = ⟨cal.type, cal.props, cal.subs ++ ss⟩ ∧
        ss <+: a1.root.subs ∧ (ls.count ("END:".toList ++ env.container) ≤ 1 → a1.look = true →
          ss = a1.root.subs) := by
  induction ls with
  | nil =>
    intro a a1 b h hr
    rw [Cont.run] at hr
    cases hr
    exact ⟨a.root.subs, rfl, h.root, List.prefix_refl _, fun _ _ => rfl⟩
  | cons l ls ih =>
    intro a a1 b h hr
    rw [Cont.run] at hr
    split at hr
    · rename_i a2 hs
      rw [AddTo.run]
      have hg : b.mode ≠ .got := by rw [h.mode]; split <;> simp
      rw [if_neg hg]
      by_cases hl : a.look = false ∧ l = "END:".toList ++ env.container
      · obtain ⟨h1, rfl⟩ := hl
        have h2 : a2 = { a with look := true } := by
          unfold Cont.step at hs
          rw [h1, show beginText.isPrefixOf ("END:".toList ++ env.container) = false from prefix_end _,
            Bool.false_and] at hs
          simp only [Bool.false_eq_true, if_false] at hs
          rw [if_pos (show "END:".toList ++ env.container = endText ++ env.container from rfl)] at hs
          cases hs
          rfl
        have h3 : AddTo.step env b ("END:".toList ++ env.container) = .ok { b with mode := .got } := by
          unfold AddTo.step
          rw [h.mode, h1]
          simp only [prefix_end, Bool.false_eq_true, if_false]
          rw [if_pos (show "END:".toList ++ env.container = endText ++ env.container from rfl)]
        rw [h3]
        simp only
        have h4 : AddTo.run env { b with mode := .got } ls = ({ b with mode := .got }, none) := by
          cases ls with
          | nil => rfl
          | cons x ls => rw [AddTo.run, if_pos rfl]
        rw [h4]
        have h5 := run_subs ls hr
        rw [h2] at h5
        refine ⟨a.root.subs, rfl, h.root, h5, ?_⟩
        intro hc hl
        rw [List.count_cons_self] at hc
        have : ("END:".toList ++ env.container) ∉ ls := by
          rw [← List.count_eq_zero]
          omega
        have := (run_outside hn ls this hr hl).2
        rw [this, h2]
      · obtain ⟨b1, hb, hB⟩ := both_step hn h hs hl
        rw [hb]
        obtain ⟨ss, h1, h2, h3, h4⟩ := ih hB hr
        refine ⟨ss, h1, h2, h3, fun hc => h4 ?_⟩
        exact le_trans (List.count_le_count_cons) hc
    · cases hr

end Add100

/-- C100: data that `parse` reads as a calendar are read without an exception, and the components added are
those of that calendar, from the first on; all of them if the end of a calendar is in the data only
once. -/
theorem C100_agrees (env : Cont.Env) (hn : env.nested = true) (cal : Frame)
    (ht : cal.type = env.container) (ls : List (List Char)) (c : Component)
    (h : Cont.parse env ls = .ok (some c)) :
    ∃ ss r, parseComponent env cal ls = (⟨cal.type, cal.props, cal.subs ++ ss⟩, .ok r) ∧
      ss <+: c.subs ∧ (ls.count ("END:".toList ++ env.container) = 1 → ss = c.subs) := by
  rw [Cont.parse] at h
  split at h
  · cases h
  · rename_i st hr
    split at h
    · cases h
    · rename_i hlook
      split at h
      · cases h
      · simp only [Except.ok.injEq] at h
        split at h
        · simp only [Option.some.injEq] at h
          subst h
          obtain ⟨ss, h1, h2, h3, h4⟩ := both_run (cal := cal) hn ls (a := Cont.start env) (a1 := st)
            (b := ⟨.look, cal, []⟩) ⟨rfl, rfl, by simp [Cont.start], by rw [ht]; rfl⟩ hr
          refine ⟨ss, first cal.subs.length (AddTo.run env ⟨.look, cal, []⟩ ls).1, ?_, h3,
            fun hc => h4 (le_of_eq hc) (by simpa using hlook)⟩
          rw [parseComponent]
          simp only [h1, h2]
        · cases h

namespace Add100

/-- The calendar of the time zone database with one zone. -/
def db : Frame := ⟨"VCALENDAR".toList, [Nest40.version],
  [.mk "VTIMEZONE".toList [⟨"TZID".toList, "TZID:a".toList⟩] []]⟩

def file : List (List Char) := Nest40.doc ["BEGIN:VCALENDAR", "VERSION:2.0", "BEGIN:VTIMEZONE", "TZID:b",
  "BEGIN:STANDARD", "TZNAME:x", "END:STANDARD", "END:VTIMEZONE", "END:VCALENDAR"]

def zoneB : Component := .mk "VTIMEZONE".toList [⟨"TZID".toList, "TZID:b".toList⟩]
  [.mk "STANDARD".toList [⟨"TZNAME".toList, "TZNAME:x".toList⟩] []]

end Add100

/-- A file of the database: both readers read it, and the zone is added. -/
example : Cont.parse calendarEnv Add100.file =
      .ok (some (.mk "VCALENDAR".toList [Nest40.version] [Add100.zoneB])) ∧
    parseComponent calendarEnv Add100.db Add100.file =
      (⟨Add100.db.type, Add100.db.props, Add100.db.subs ++ [Add100.zoneB]⟩, .ok (some Add100.zoneB)) := by
  refine ⟨by decide +kernel, ?_⟩
  obtain ⟨ss, r, h1, -, h3⟩ := C100_agrees calendarEnv rfl Add100.db rfl Add100.file
    (.mk "VCALENDAR".toList [Nest40.version] [Add100.zoneB]) (by decide +kernel)
  have h3 := h3 (by decide)
  simp only [Component.subs] at h3
  subst h3
  obtain ⟨c, ss, h2, h4⟩ := C100_result calendarEnv Add100.db Add100.file r (by rw [h1]) (by
    rw [h1]; simp)
  rw [h1] at h4
  simp only [List.append_cancel_left_eq, List.cons.injEq] at h4
  rw [h1, h2, ← h4.1]

/-- The conditions of the others hold for the lines of such a file. -/
example : Body calendarEnv false "VTIMEZONE".toList (Nest40.doc ["TZID:b"])
      [⟨"TZID".toList, "TZID:b".toList⟩] [] ∧
    Items calendarEnv (Nest40.doc ["VERSION:9", "BEGIN:VTIMEZONE", "TZID:b", "END:VTIMEZONE"])
      [.mk "VTIMEZONE".toList [⟨"TZID".toList, "TZID:b".toList⟩] []] ∧
    calendarEnv.parseProp "TZID".toList = some ⟨"TZID".toList, "TZID".toList⟩ ∧
    calendarEnv.parseProp ":".toList = none := by
  have hb : Body calendarEnv false "VTIMEZONE".toList (Nest40.doc ["TZID:b"])
      [⟨"TZID".toList, "TZID:b".toList⟩] [] :=
    .prop (by decide) (by decide) (by decide) (by decide +kernel) (by simp) .nil
  refine ⟨hb, ?_, by decide +kernel, by decide +kernel⟩
  refine .skip (by decide) (by decide) (by decide) ?_
  exact .comp "VTIMEZONE".toList (ls := []) (body := Nest40.doc ["TZID:b"]) (by decide) (by decide) rfl
    (by decide) hb .nil

end PyCal
