import Mathlib.Tactic.Tauto
import Verif.Spec.Container

/-!
# C40: which data a container accepts
-/

namespace PyCal
open Cont Spec

namespace Nest40

theorem run_append (env : Env) (st : PSt) (a b : List (List Char)) :
    run env st (a ++ b) = match run env st a with
      | .ok st => run env st b
      | .error e => .error e := by
  induction a generalizing st with
  | nil => rfl
  | cons l a ih =>
    rw [List.cons_append, run, run]
    split
    · exact ih _
    · rfl

theorem begins_eq (l : List Char) : beginText.isPrefixOf l = true ↔ Begins l :=
  List.isPrefixOf_iff_prefix

theorem not_begins_end (t : List Char) : ¬ Begins (endText ++ t) := by
  rintro ⟨s, h⟩
  simp [endText] at h

theorem ends_end (t : List Char) : Ends (endText ++ t) := ⟨t, rfl⟩

theorem end_inj {a b : List Char} (h : endText ++ a = endText ++ b) : a = b :=
  List.append_cancel_left h

/-- What a state is after properties and components were read into the innermost component. -/
def addTo (st : PSt) (ps : List CProp) (ss : List Component) : PSt :=
  match st.stack with
  | [] => { st with root := ⟨st.root.type, st.root.props ++ ps, st.root.subs ++ ss⟩ }
  | f :: rest => { st with stack := ⟨f.type, f.props ++ ps, f.subs ++ ss⟩ :: rest }

/-- The innermost component. -/
def inner (st : PSt) : Frame := st.stack.headD st.root

theorem addTo_nil (st : PSt) : addTo st [] [] = st := by
  unfold addTo
  obtain ⟨look, result, root, stack⟩ := st
  cases stack <;> simp

theorem addTo_addTo (st : PSt) (ps ps' : List CProp) (ss ss' : List Component) :
    addTo (addTo st ps ss) ps' ss' = addTo st (ps ++ ps') (ss ++ ss') := by
  obtain ⟨look, result, root, stack⟩ := st
  cases stack <;> simp [addTo]

theorem addTo_look (st : PSt) (ps : List CProp) (ss : List Component) :
    (addTo st ps ss).look = st.look := by
  obtain ⟨look, result, root, stack⟩ := st
  cases stack <;> rfl

theorem addTo_type (st : PSt) (ps : List CProp) (ss : List Component) :
    (inner (addTo st ps ss)).type = (inner st).type := by
  obtain ⟨look, result, root, stack⟩ := st
  cases stack <;> rfl

theorem addTo_stack (st : PSt) (ps : List CProp) (ss : List Component) :
    (addTo st ps ss).stack = [] ↔ st.stack = [] := by
  obtain ⟨look, result, root, stack⟩ := st
  cases stack <;> simp [addTo]

theorem step_blank {env : Env} {st : PSt} (hb : env.blankRaise = false) : step env st [] = .ok st := by
  have h1 : beginText.isPrefixOf [] = false := rfl
  have h2 : ∀ t, ([] : List Char) ≠ endText ++ t := by intro t; simp [endText]
  have h3 : ∀ t, ([] : List Char) ≠ beginText ++ t := by intro t; simp [beginText]
  have h4 : blankLine env st = .ok st := by rw [blankLine, if_neg (by simp [hb])]
  unfold step
  rw [if_neg (h3 _), if_pos rfl, h4, h1, Bool.false_and]
  simp only [Bool.false_eq_true, if_false, if_true, if_neg (h2 _)]
  split
  · rfl
  · split <;> rfl

theorem step_prop {env : Env} {st : PSt} {l : List Char} {p : CProp} (hl : st.look = false)
    (h0 : l ≠ []) (hb : ¬ Begins l) (he : ¬ Ends l) (hp : env.parseProp l = some p)
    (hv : st.stack = [] → env.valid p = true) : step env st l = .ok (addTo st [p] []) := by
  have h2 : ∀ t, l ≠ endText ++ t := by rintro t rfl; exact he (ends_end t)
  have h1 : beginText.isPrefixOf l = false := by
    rw [← Bool.not_eq_true, begins_eq]; exact hb
  unfold step
  rw [hl, h1, Bool.false_and]
  simp only [Bool.false_eq_true, if_false, if_neg (h2 _), if_neg h0, propLine, hp]
  obtain ⟨look, result, root, stack⟩ := st
  cases stack with
  | nil => simp only [addTo, if_pos (hv rfl), List.append_nil]
  | cons f rest => simp [addTo]

theorem step_begin {env : Env} {st : PSt} {t : List Char} (hl : st.look = false)
    (hn : env.nested = true) (hu : t ≠ "UNKNOWN".toList) :
    step env st ("BEGIN:".toList ++ t) = .ok { st with stack := ⟨t, [], []⟩ :: st.stack } := by
  have h1 : beginText.isPrefixOf ("BEGIN:".toList ++ t) = true := by
    rw [begins_eq]; exact ⟨t, rfl⟩
  unfold step
  rw [hl, h1, hn]
  simp only [Bool.false_eq_true, if_false, Bool.and_self, if_true]
  have : ("BEGIN:".toList ++ t).drop 6 = t := rfl
  rw [this, makeType, if_neg hu]

theorem table_iff {p a1 a2 a3 a4 a5 : List Char} {q1 q3 q4 q5 : Prop} [Decidable q1] [Decidable q3]
    [Decidable q4] [Decidable q5] (d1 : a1 ≠ a3) (d2 : a1 ≠ a4) (d3 : a1 ≠ a5) (d4 : a2 ≠ a3)
    (d5 : a2 ≠ a4) (d6 : a2 ≠ a5) (d7 : a3 ≠ a4) (d8 : a3 ≠ a5) (d9 : a4 ≠ a5) :
    (if p = a1 ∨ p = a2 then decide q1 else if p = a3 then decide q3 else if p = a4 then decide q4
      else if p = a5 then decide q5 else true) = true ↔
    (p = a1 → q1) ∧ (p = a2 → q1) ∧ (p = a3 → q3) ∧ (p = a4 → q4) ∧ (p = a5 → q5) := by
  by_cases h1 : p = a1
  · subst h1; simp [d1, d2, d3]; tauto
  by_cases h2 : p = a2
  · subst h2; simp [h1, d4, d5, d6]
  by_cases h3 : p = a3
  · subst h3; simp [h1, h2, d7, d8]
  by_cases h4 : p = a4
  · subst h4; simp [h1, h2, h3, d9]
  by_cases h5 : p = a5
  · subst h5; simp [h1, h2, h3, h4]
  simp [h1, h2, h3, h4, h5]

theorem takes_iff (parent child : List Char) : admits parent child = true ↔ Takes parent child :=
  table_iff (by decide) (by decide) (by decide) (by decide) (by decide) (by decide) (by decide)
    (by decide) (by decide)

theorem step_end {env : Env} {st : PSt} {f : Frame} {rest : List Frame} {c : Component}
    (hl : st.look = false) (hc : f.type ≠ env.container)
    (hf : env.finalise (.mk f.type f.props f.subs) = some c)
    (ht : Takes (inner { st with stack := rest }).type c.type) :
    step env { st with stack := f :: rest } ("END:".toList ++ f.type) =
      .ok (addTo { st with stack := rest } [] [c]) := by
  have ha := (takes_iff _ _).mpr ht
  have h1 : beginText.isPrefixOf ("END:".toList ++ f.type) = false := by
    rw [← Bool.not_eq_true, begins_eq]; exact not_begins_end _
  have h2 : ¬ "END:".toList ++ f.type = endText ++ env.container := fun h => hc (end_inj h)
  unfold step
  simp only [hl, h1, Bool.false_and, Bool.false_eq_true, if_false, if_neg h2]
  rw [if_pos (show "END:".toList ++ f.type = endText ++ f.type from rfl), closeFrame]
  simp only [hf]
  cases rest with
  | nil =>
    simp only [inner, List.headD_nil] at ha
    simp only [addSub, if_pos ha, addTo, List.append_nil]
    rfl
  | cons g rest =>
    simp only [inner, List.headD_cons] at ha
    simp only [addSub, if_pos ha, addTo, List.append_nil]
    rfl

theorem run_body {env : Env} (hn : env.nested = true) {top : Bool} {t : List Char}
    {ls : List (List Char)} {ps : List CProp} {ss : List Component} (h : Body env top t ls ps ss) :
    ∀ st : PSt, st.look = false → (inner st).type = t → (st.stack = [] → top = true) →
      run env st ls = .ok (addTo st ps ss) := by
  induction h with
  | nil => intro st _ _ _; rw [addTo_nil]; rfl
  | blank hb _ ih =>
    intro st h1 h2 h3
    rw [run, step_blank hb]
    exact ih st h1 h2 h3
  | prop h0 hb he hp hv _ ih =>
    intro st h1 h2 h3
    rw [run, step_prop h1 h0 hb he hp fun h => hv (h3 h)]
    simp only
    rw [ih _ (by rw [addTo_look]; exact h1) (by rw [addTo_type]; exact h2)
      (fun h => h3 ((addTo_stack _ _ _).mp h)), addTo_addTo]
    simp
  | @comp top t t' body ps' ss' c ls ps ss hc hu hf ha _ _ ih1 ih2 =>
    intro st h1 h2 h3
    rw [run, step_begin h1 hn hu]
    simp only
    rw [run_append, ih1 { st with stack := ⟨t', [], []⟩ :: st.stack } h1 rfl (by simp)]
    simp only
    rw [run]
    have hadd : addTo { st with stack := ⟨t', [], []⟩ :: st.stack } ps' ss' =
        { st with stack := ⟨t', ps', ss'⟩ :: st.stack } := by simp [addTo]
    have := step_end (env := env) (st := st) (f := ⟨t', ps', ss'⟩) (rest := st.stack) (c := c) h1 hc hf
      (by rw [show ({ st with stack := st.stack } : PSt) = st from rfl, h2]; exact ha)
    rw [hadd, this]
    simp only
    rw [ih2 _ (by rw [addTo_look]; exact h1) (by rw [addTo_type]; exact h2)
      (fun h => h3 ((addTo_stack _ _ _).mp h)), addTo_addTo]
    simp

theorem run_blank {env : Env} {ls : List (List Char)} (hb : env.blankRaise = false ∨ ls = [])
    (h : Blank ls) (st : PSt) : run env st ls = .ok st := by
  induction ls with
  | nil => rfl
  | cons l ls ih =>
    obtain rfl := h l (by simp)
    have hb' : env.blankRaise = false := by simpa using hb
    rw [run, step_blank hb']
    exact ih (Or.inl hb') fun l hl => h l (List.mem_cons_of_mem _ hl)

end Nest40
open Nest40

/-- C40: complete, properly nested data is accepted, and gives exactly the properties and components
that it says, if it has a VERSION. -/
theorem C40_complete (env : Env) (hn : env.nested = true) (b1 b2 body : List (List Char))
    (ps : List CProp) (ss : List Component) (h1 : Blank b1) (h2 : Blank b2)
    (hb : env.blankRaise = false ∨ b1 = [] ∧ b2 = []) (h : Body env true env.container body ps ss)
    (hv : ∃ p ∈ ps, p.key = "VERSION".toList) :
    parse env (b1 ++ ("BEGIN:".toList ++ env.container) ::
      (body ++ ("END:".toList ++ env.container) :: b2)) = .ok (some (.mk env.container ps ss)) := by
  have hs1 : step env (start env) ("BEGIN:".toList ++ env.container) =
      .ok { start env with look := false, result := true } := by
    unfold step
    rw [if_pos (show (start env).look = true from rfl),
      if_pos (show "BEGIN:".toList ++ env.container = beginText ++ env.container from rfl)]
  have hs2 : ∀ st : PSt, st.look = false → step env st ("END:".toList ++ env.container) =
      .ok { st with look := true } := by
    intro st hl
    have h1 : beginText.isPrefixOf ("END:".toList ++ env.container) = false := by
      rw [← Bool.not_eq_true, begins_eq]; exact not_begins_end _
    unfold step
    rw [hl, h1, Bool.false_and]
    simp only [Bool.false_eq_true, if_false]
    rw [if_pos (show "END:".toList ++ env.container = endText ++ env.container from rfl)]
  rw [parse, run_append, run_blank (by tauto) h1]
  simp only
  rw [run, hs1]
  simp only
  rw [run_append, run_body hn h _ rfl rfl (fun _ => rfl)]
  simp only
  rw [run, hs2 _ (by rw [addTo_look])]
  simp only
  rw [run_blank (by tauto) h2]
  simp only [addTo, start, List.nil_append, Bool.not_true, Bool.false_eq_true, if_false, if_true,
    Bool.true_and]
  rw [if_neg]
  simp only [Bool.not_eq_true', Bool.not_eq_false, List.any_eq_true, decide_eq_true_eq]
  exact hv

namespace Nest40

theorem step_look {env : Env} {st st1 : PSt} {l : List Char} (hl : st.look = true)
    (h : step env st l = .ok st1) :
    (l = beginText ++ env.container ∧ st1 = { st with look := false, result := true }) ∨
      (l = [] ∧ st1 = st) := by
  unfold step at h
  rw [hl, if_pos rfl] at h
  split at h
  · rename_i hb
    exact Or.inl ⟨hb, (Except.ok.inj h).symm⟩
  · split at h
    · rename_i h0
      unfold blankLine at h
      split at h
      · cases h
      · exact Or.inr ⟨h0, (Except.ok.inj h).symm⟩
    · cases h

/-- What a line can do in the state `GET_PROPERTY_OR_COMPONENT`. -/
inductive Move (env : Env) (st : PSt) (l : List Char) (st1 : PSt) : Prop
  | open (t : List Char) (h : l = beginText ++ t)
      (h1 : st1 = { st with stack := ⟨makeType t, [], []⟩ :: st.stack })
  | close (hb : ¬ Begins l) (h : l = endText ++ env.container) (h1 : st1 = { st with look := true })
  | closeRoot (f : Frame) (c : Component) (hb : ¬ Begins l) (hs : st.stack = [f])
      (h : l = endText ++ f.type)
      (hf : env.finalise (.mk f.type f.props f.subs) = some c)
      (h1 : st1 = { st with root := { st.root with subs := st.root.subs ++ [c] }, stack := [] })
  | closeSub (f g : Frame) (rest : List Frame) (c : Component) (hb : ¬ Begins l)
      (hs : st.stack = f :: g :: rest)
      (h : l = endText ++ f.type) (hf : env.finalise (.mk f.type f.props f.subs) = some c)
      (h1 : st1 = { st with stack := { g with subs := g.subs ++ [c] } :: rest })
  | blank (h : l = []) (h1 : st1 = st)
  | propRoot (p : CProp) (hb : ¬ Begins l) (hs : st.stack = []) (h0 : l ≠ [])
      (hp : env.parseProp l = some p)
      (h1 : st1 = { st with root := { st.root with props := st.root.props ++ [p] } })
  | propSub (f : Frame) (rest : List Frame) (p : CProp) (hb : ¬ Begins l) (hs : st.stack = f :: rest)
      (h0 : l ≠ []) (hp : env.parseProp l = some p)
      (h1 : st1 = { st with stack := { f with props := f.props ++ [p] } :: rest })

theorem addSub_ok {f g : Frame} {c : Component} (h : addSub f c = .ok g) :
    g = { f with subs := f.subs ++ [c] } := by
  unfold addSub at h
  split at h
  · exact (Except.ok.inj h).symm
  · cases h

theorem step_get {env : Env} (hn : env.nested = true) {st st1 : PSt} {l : List Char}
    (hl : st.look = false) (h : step env st l = .ok st1) : Move env st l st1 := by
  unfold step at h
  rw [hl, hn, Bool.and_true] at h
  simp only [Bool.false_eq_true, if_false] at h
  split at h
  · rename_i hb
    obtain ⟨t, ht⟩ := (begins_eq l).mp hb
    refine .open t ht.symm ?_
    rw [← Except.ok.inj h, ← ht, hl]
    rfl
  · rename_i hb
    rw [begins_eq] at hb
    split at h
    · rename_i he
      exact .close hb he (Except.ok.inj h).symm
    · split at h
      · rename_i f rest hs
        split at h
        · rename_i he
          unfold closeFrame at h
          split at h
          · cases h
          · rename_i c hf
            split at h
            · cases ha : addSub st.root c with
              | error e => rw [ha] at h; cases h
              | ok r =>
                rw [ha] at h
                have := addSub_ok ha
                refine .closeRoot f c hb hs he hf ?_
                rw [← this]
                exact (Except.ok.inj h).symm
            · rename_i g rest
              cases ha : addSub g c with
              | error e => rw [ha] at h; cases h
              | ok r =>
                rw [ha] at h
                have := addSub_ok ha
                refine .closeSub f g rest c hb hs he hf ?_
                rw [← this]
                exact (Except.ok.inj h).symm
        · split at h
          · rename_i h0
            unfold blankLine at h
            split at h
            · cases h
            · exact .blank h0 (Except.ok.inj h).symm
          · rename_i h0
            unfold propLine at h
            split at h
            · cases h
            · rename_i p hp
              simp only [hs] at h
              exact .propSub f rest p hb hs h0 hp (Except.ok.inj h).symm
      · rename_i hs
        split at h
        · rename_i h0
          unfold blankLine at h
          split at h
          · cases h
          · exact .blank h0 (Except.ok.inj h).symm
        · rename_i h0
          unfold propLine at h
          split at h
          · cases h
          · rename_i p hp
            simp only [hs] at h
            split at h
            · refine .propRoot p hb hs h0 hp ?_
              rw [hs]
              exact (Except.ok.inj h).symm
            · cases h

theorem run_cons {env : Env} {st st' : PSt} {l : List Char} {ls : List (List Char)}
    (h : run env st (l :: ls) = .ok st') : ∃ st1, step env st l = .ok st1 ∧ run env st1 ls = .ok st' := by
  rw [run] at h
  split at h
  · rename_i st1 h1
    exact ⟨st1, h1, h⟩
  · cases h

/-- How many lines begin a component. -/
def begins (ls : List (List Char)) : Nat := ls.countP fun l => decide (Begins l)

/-- How many components have been begun, the container not counted. -/
def size (st : PSt) : Nat := compCountL st.root.subs + (st.stack.map fun f => 1 + compCountL f.subs).sum

def frameKeys (f : Frame) : List (List Char) := f.props.map CProp.key ++ keysInL f.subs

def stKeys (st : PSt) : List (List Char) := frameKeys st.root ++ st.stack.flatMap frameKeys

theorem countL_append (a b : List Component) : compCountL (a ++ b) = compCountL a + compCountL b := by
  induction a with
  | nil => simp [compCountL]
  | cons c a ih => rw [List.cons_append, compCountL, compCountL, ih]; omega

theorem keysL_append (a b : List Component) : keysInL (a ++ b) = keysInL a ++ keysInL b := by
  induction a with
  | nil => simp [keysInL]
  | cons c a ih => rw [List.cons_append, keysInL, keysInL, ih, List.append_assoc]

/-- Finishing a component leaves in it the components and properties that it has. -/
def Keeps (env : Env) : Prop := ∀ c c', env.finalise c = some c' →
  compCount c' = compCount c ∧ ∀ k ∈ keysIn c, k ∈ keysIn c'

theorem begins_cons (l : List Char) (ls : List (List Char)) :
    begins (l :: ls) = begins ls + if Begins l then 1 else 0 := by
  simp [begins, List.countP_cons]

theorem move_size {env : Env} (hk : Keeps env) {st st1 : PSt} {l : List Char}
    (h : Move env st l st1) : size st1 = size st + if Begins l then 1 else 0 := by
  cases h with
  | «open» t h h1 =>
    rw [if_pos ⟨t, h.symm⟩, h1]
    simp only [size, List.map_cons, List.sum_cons, compCountL]
    try omega
  | close hb h h1 => rw [if_neg hb, h1]; rfl
  | closeRoot f c hb hs h hf h1 =>
    have := (hk _ _ hf).1
    rw [if_neg hb, h1]
    simp only [compCount] at this
    simp only [size, hs, countL_append, compCountL, this, List.map_cons, List.sum_cons, List.map_nil, List.sum_nil]
  | closeSub f g rest c hb hs h hf h1 =>
    have := (hk _ _ hf).1
    rw [if_neg hb, h1]
    simp only [compCount] at this
    simp only [size, hs, countL_append, compCountL, this, List.map_cons, List.sum_cons]
    omega
  | blank h h1 => rw [h, h1]; simp [Begins]
  | propRoot p hb hs h0 hp h1 => rw [if_neg hb, h1]; rfl
  | propSub f rest p hb hs h0 hp h1 =>
    rw [if_neg hb, h1]
    simp only [size, hs, List.map_cons]
    try rfl

theorem move_keys {env : Env} (hk : Keeps env) {st st1 : PSt} {l : List Char}
    (h : Move env st l st1) : ∀ k ∈ stKeys st, k ∈ stKeys st1 := by
  intro k hm
  cases h with
  | «open» t h h1 =>
    rw [h1]
    simp only [stKeys, List.mem_append, List.flatMap_cons] at hm ⊢
    tauto
  | close hb h h1 => rw [h1]; exact hm
  | closeRoot f c hb hs h hf h1 =>
    have := (hk _ _ hf).2 k
    rw [h1]
    simp only [keysIn] at this
    simp only [stKeys, hs, frameKeys, keysL_append, keysInL, List.mem_append, List.flatMap_cons,
      List.flatMap_nil, List.append_nil] at hm this ⊢
    tauto
  | closeSub f g rest c hb hs h hf h1 =>
    have := (hk _ _ hf).2 k
    rw [h1]
    simp only [keysIn] at this
    simp only [stKeys, hs, frameKeys, keysL_append, keysInL, List.mem_append, List.flatMap_cons,
      List.append_nil] at hm this ⊢
    tauto
  | blank h h1 => rw [h1]; exact hm
  | propRoot p hb hs h0 hp h1 =>
    rw [h1]
    simp only [stKeys, frameKeys, List.map_append, List.mem_append] at hm ⊢
    tauto
  | propSub f rest p hb hs h0 hp h1 =>
    rw [h1]
    simp only [stKeys, hs, frameKeys, List.map_append, List.mem_append, List.flatMap_cons] at hm ⊢
    tauto

theorem run_size {env : Env} (hn : env.nested = true) (hk : Keeps env) {ls : List (List Char)} :
    ∀ {st st' : PSt}, run env st ls = .ok st' → size st' ≤ size st + begins ls := by
  induction ls with
  | nil => intro st st' h; cases h; simp
  | cons l ls ih =>
    intro st st' h
    obtain ⟨st1, h1, h2⟩ := run_cons h
    have := ih h2
    rw [begins_cons]
    cases hl : st.look with
    | true =>
      rcases step_look hl h1 with ⟨-, rfl⟩ | ⟨-, rfl⟩
      · exact this.trans (by simp only [size]; omega)
      · omega
    | false =>
      have := move_size hk (step_get hn hl h1)
      omega

theorem run_keys {env : Env} (hn : env.nested = true) (hk : Keeps env) {ls : List (List Char)} :
    ∀ {st st' : PSt}, run env st ls = .ok st' → ∀ k ∈ stKeys st, k ∈ stKeys st' := by
  induction ls with
  | nil => intro st st' h; cases h; exact fun k h => h
  | cons l ls ih =>
    intro st st' h k hm
    obtain ⟨st1, h1, h2⟩ := run_cons h
    refine ih h2 k ?_
    cases hl : st.look with
    | true =>
      rcases step_look hl h1 with ⟨-, rfl⟩ | ⟨-, rfl⟩
      · exact hm
      · exact hm
    | false => exact move_keys hk (step_get hn hl h1) k hm

/-- What closes the components of the types, then the container. -/
def Tail (env : Env) : List (List Char) → List (List Char) → Prop
  | ls, [] => ∃ body b2, ls = body ++ (endText ++ env.container) :: b2 ∧ Nested body ∧ Blank b2
  | ls, t :: ts => ∃ body rest, ls = body ++ (endText ++ t) :: rest ∧ Nested body ∧ Tail env rest ts

theorem nested_append {a b : List (List Char)} (ha : Nested a) (hb : Nested b) : Nested (a ++ b) := by
  induction ha with
  | nil => exact hb
  | line h1 h2 _ ih => exact .line h1 h2 ih
  | comp t h1 _ _ ih2 =>
    have := Nested.comp t h1 ih2
    simpa using this

theorem tail_prepend {env : Env} {a ls : List (List Char)} {ts : List (List Char)} (ha : Nested a)
    (h : Tail env ls ts) : Tail env (a ++ ls) ts := by
  cases ts with
  | nil =>
    obtain ⟨body, b2, rfl, h1, h2⟩ := h
    exact ⟨a ++ body, b2, by simp, nested_append ha h1, h2⟩
  | cons t ts =>
    obtain ⟨body, rest, rfl, h1, h2⟩ := h
    exact ⟨a ++ body, rest, by simp, nested_append ha h1, h2⟩

theorem run_tail {env : Env} (hn : env.nested = true) (hk : Keeps env)
    (he : ∀ l p, Ends l → env.parseProp l = some p → p.key = "END".toList) {ls : List (List Char)} :
    ∀ {st st' : PSt}, run env st ls = .ok st' → st'.look = true → st'.stack = [] →
      "END".toList ∉ stKeys st' → "BEGIN:UNKNOWN".toList ∉ ls → size st' = size st + begins ls →
      (st.look = true → Blank ls ∧ st.stack = []) ∧
      (st.look = false → Tail env ls (st.stack.map Frame.type)) := by
  induction ls with
  | nil =>
    intro st st' h h1 h2 h3 h4 h5
    cases h
    refine ⟨fun _ => ⟨by simp [Blank], h2⟩, fun h => ?_⟩
    rw [h1] at h
    simp at h
  | cons l ls ih =>
    intro st st' h h1 h2 h3 h4 h5
    obtain ⟨st1, hs, hr⟩ := run_cons h
    rw [List.mem_cons, not_or] at h4
    rw [begins_cons] at h5
    have hle := run_size hn hk hr
    refine ⟨fun hl => ?_, fun hl => ?_⟩
    · rcases step_look hl hs with ⟨hb, rfl⟩ | ⟨rfl, rfl⟩
      · exfalso
        rw [if_pos ⟨env.container, hb.symm⟩] at h5
        simp only [size] at h5 hle
        omega
      · have hnb : ¬ Begins ([] : List Char) := by simp [Begins]
        rw [if_neg hnb] at h5
        obtain ⟨hbl, hst⟩ := (ih hr h1 h2 h3 h4.2 (by omega)).1 hl
        exact ⟨by simpa [Blank] using hbl, hst⟩
    · have hm := step_get hn hl hs
      have hsz := move_size hk hm
      have ih := ih hr h1 h2 h3 h4.2 (by omega)
      have notEnd : ∀ p, env.parseProp l = some p → p.key ∈ stKeys st1 → ¬ Ends l := by
        intro p hp hmem hel
        exact h3 (run_keys hn hk hr _ (he l p hel hp ▸ hmem))
      have line : ¬ Begins l → ¬ Ends l → Tail env ls (st.stack.map Frame.type) →
          Tail env (l :: ls) (st.stack.map Frame.type) := by
        intro ha hb hc
        exact tail_prepend (.line ha hb .nil) hc
      cases hm with
      | «open» t h h1 =>
        subst h1
        obtain ⟨body, rest, hls, hb, hrest⟩ := ih.2 hl
        have ht : makeType t = t := by
          rw [makeType, if_neg]
          rintro rfl
          exact h4.1 h.symm
        simp only at hls
        rw [ht] at hls
        rw [h, hls]
        have := tail_prepend (Nested.comp t hb .nil) hrest
        simpa [beginText, endText] using this
      | close hb h h1 =>
        subst h1
        obtain ⟨hbl, hst⟩ := ih.1 rfl
        simp only at hst
        rw [hst, h]
        exact ⟨[], ls, rfl, .nil, hbl⟩
      | closeRoot f c hb hs' h hf h1 =>
        subst h1
        have := ih.2 hl
        rw [hs', h]
        exact ⟨[], ls, rfl, .nil, this⟩
      | closeSub f g rest c hb hs' h hf h1 =>
        subst h1
        have := ih.2 hl
        rw [hs', h]
        exact ⟨[], ls, rfl, .nil, this⟩
      | blank h0 h1 =>
        subst h1
        exact line (by rw [h0]; simp [Begins]) (by rw [h0]; simp [Ends]) (ih.2 hl)
      | propRoot p hb hs' h0 hp h1 =>
        subst h1
        refine line hb (notEnd p hp ?_) (ih.2 hl)
        simp [stKeys, frameKeys]
      | propSub f rest p hb hs' h0 hp h1 =>
        subst h1
        refine line hb (notEnd p hp ?_) (by simpa [hs'] using ih.2 hl)
        simp [stKeys, frameKeys]

/-- Until the container is found there are only blank lines. -/
theorem run_lead {env : Env} {ls : List (List Char)} :
    ∀ {st st' : PSt}, run env st ls = .ok st' → st.look = true →
      (Blank ls ∧ st' = st) ∨ ∃ b1 rest, ls = b1 ++ (beginText ++ env.container) :: rest ∧ Blank b1 ∧
        run env { st with look := false, result := true } rest = .ok st' := by
  induction ls with
  | nil => intro st st' h _; cases h; exact Or.inl ⟨by simp [Blank], rfl⟩
  | cons l ls ih =>
    intro st st' h hl
    obtain ⟨st1, hs, hr⟩ := run_cons h
    rcases step_look hl hs with ⟨rfl, rfl⟩ | ⟨rfl, rfl⟩
    · exact Or.inr ⟨[], ls, rfl, by simp [Blank], hr⟩
    · rcases ih hr hl with ⟨hb, rfl⟩ | ⟨b1, rest, rfl, hb, hr'⟩
      · exact Or.inl ⟨by simpa [Blank] using hb, rfl⟩
      · exact Or.inr ⟨[] :: b1, rest, rfl, by simpa [Blank] using hb, hr'⟩

theorem step_closes {env : Env} {st st1 : PSt} {l : List Char} (hl : st.look = false)
    (hs : step env st l = .ok st1) (hl1 : st1.look = true) : l = endText ++ env.container := by
  have hp : ∀ {st1}, propLine env st l = .ok st1 → st1.look = st.look := by
    intro st1 h
    unfold propLine at h
    split at h
    · cases h
    · split at h
      · split at h
        · rw [← Except.ok.inj h]
        · cases h
      · rw [← Except.ok.inj h]
  have hbl : ∀ {st1}, blankLine env st = .ok st1 → st1.look = st.look := by
    intro st1 h
    unfold blankLine at h
    split at h
    · cases h
    · rw [← Except.ok.inj h]
  have hcl : ∀ {st1} f rest, closeFrame env st f rest = .ok st1 → st1.look = st.look := by
    intro st1 f rest h
    unfold closeFrame at h
    cases hf : env.finalise (.mk f.type f.props f.subs) with
    | none => rw [hf] at h; cases h
    | some c =>
      rw [hf] at h
      cases rest with
      | nil =>
        cases ha : addSub st.root c with
        | error e => simp only [ha] at h; cases h
        | ok r => simp only [ha] at h; rw [← Except.ok.inj h]
      | cons g rest =>
        cases ha : addSub g c with
        | error e => simp only [ha] at h; cases h
        | ok r => simp only [ha] at h; rw [← Except.ok.inj h]
  have key : st1.look = st.look ∨ l = endText ++ env.container := by
    unfold step at hs
    rw [if_neg (by rw [hl]; simp)] at hs
    split at hs
    · left; rw [← Except.ok.inj hs]
    · split at hs
      · right; assumption
      · left
        split at hs
        · split at hs
          · exact hcl _ _ hs
          · split at hs
            · exact hbl hs
            · exact hp hs
        · split at hs
          · exact hbl hs
          · exact hp hs
  rcases key with h | h
  · rw [hl1, hl] at h
    simp at h
  · exact h

theorem run_last {env : Env} {ls : List (List Char)} :
    ∀ {st st' : PSt}, run env st ls = .ok st' → st'.look = true →
      (st.look = true → Blank ls ∨ ∃ mid b2, ls = mid ++ (endText ++ env.container) :: b2 ∧ Blank b2) ∧
      (st.look = false → ∃ mid b2, ls = mid ++ (endText ++ env.container) :: b2 ∧ Blank b2) := by
  induction ls with
  | nil =>
    intro st st' h h1
    cases h
    exact ⟨fun _ => Or.inl (by simp [Blank]), fun h => by rw [h1] at h; simp at h⟩
  | cons l ls ih =>
    intro st st' h h1
    obtain ⟨st1, hs, hr⟩ := run_cons h
    have ih := ih hr h1
    refine ⟨fun hl => ?_, fun hl => ?_⟩
    · rcases step_look hl hs with ⟨rfl, rfl⟩ | ⟨rfl, rfl⟩
      · obtain ⟨mid, b2, rfl, hb⟩ := ih.2 rfl
        exact Or.inr ⟨_ :: mid, b2, rfl, hb⟩
      · rcases ih.1 hl with hb | ⟨mid, b2, rfl, hb⟩
        · exact Or.inl (by simpa [Blank] using hb)
        · exact Or.inr ⟨_ :: mid, b2, rfl, hb⟩
    · by_cases hl1 : st1.look = true
      · rcases ih.1 hl1 with hb | ⟨mid, b2, rfl, hb⟩
        · refine ⟨[], ls, ?_, hb⟩
          rw [List.nil_append, step_closes hl hs hl1]
        · exact ⟨_ :: mid, b2, rfl, hb⟩
      · obtain ⟨mid, b2, rfl, hb⟩ := ih.2 (by simpa using hl1)
        exact ⟨_ :: mid, b2, rfl, hb⟩

theorem parse_ok {env : Env} {ls : List (List Char)} {c : Component}
    (h : parse env ls = .ok (some c)) : ∃ st, run env (start env) ls = .ok st ∧ st.look = true ∧
      st.result = true ∧ c = .mk env.container st.root.props st.root.subs ∧
      ∃ p ∈ c.props, p.key = "VERSION".toList := by
  unfold parse at h
  split at h
  · cases h
  · rename_i st hr
    split at h
    · cases h
    · rename_i hl
      split at h
      · cases h
      · rename_i hv
        cases hres : st.result with
        | false => rw [hres] at h; simp at h
        | true =>
          rw [hres, if_pos rfl] at h
          rw [hres] at hv
          have hc := Option.some.inj (Except.ok.inj h)
          refine ⟨st, hr, by simpa using hl, hres, hc.symm, ?_⟩
          rw [← hc]
          simpa [Component.props] using hv

end Nest40
open Nest40

/-- C40: accepted data begins and ends with the container's own delimiters, only blank lines being
outside them, and has a VERSION property.  (Nothing is said of `END:` in between, `C40_sound_partial`.) -/
theorem C40_delimited (env : Env) (ls : List (List Char)) (c : Component)
    (h : parse env ls = .ok (some c)) :
    (∃ b1 mid b2, ls = b1 ++ ("BEGIN:".toList ++ env.container) ::
        (mid ++ ("END:".toList ++ env.container) :: b2) ∧ Blank b1 ∧ Blank b2) ∧
      c.type = env.container ∧ ∃ p ∈ c.props, p.key = "VERSION".toList := by
  obtain ⟨st, hr, hl, hres, hc, hv⟩ := parse_ok h
  refine ⟨?_, by rw [hc]; rfl, hv⟩
  rcases run_lead hr rfl with ⟨-, rfl⟩ | ⟨b1, rest, rfl, hb, hr'⟩
  · simp [start] at hres
  · obtain ⟨mid, b2, rfl, hb2⟩ := (run_last hr' hl).2 rfl
    exact ⟨b1, mid, b2, rfl, hb, hb2⟩

/-- C40: accepted data is one complete, properly nested object if the result has as many components as
there are lines `BEGIN:` and no property `END`.  Missing: without these conditions it is false
(`C40_fails_unclosed`, `C40_fails_mismatch`, `C40_fails_twice`, `C40_fails_unknown`). -/
theorem C40_sound_partial (env : Env) (hn : env.nested = true) (hk : Keeps env)
    (he : ∀ l p, Ends l → env.parseProp l = some p → p.key = "END".toList) (ls : List (List Char))
    (c : Component) (h : parse env ls = .ok (some c)) (hu : "BEGIN:UNKNOWN".toList ∉ ls)
    (hc : compCount c = (ls.filter fun l => decide (Begins l)).length) (hend : "END".toList ∉ keysIn c) :
    Complete env.container ls := by
  obtain ⟨st, hr, hl, hres, rfl, hv⟩ := parse_ok h
  rcases run_lead hr rfl with ⟨-, rfl⟩ | ⟨b1, rest, rfl, hb, hr'⟩
  · simp [start] at hres
  · have hb0 : begins b1 = 0 := by
      rw [begins, List.countP_eq_zero]
      intro l hl
      rw [hb l hl]
      simp [Begins]
    have hlen : (List.filter (fun l => decide (Begins l))
        (b1 ++ (beginText ++ env.container) :: rest)).length = begins b1 + (begins rest + 1) := by
      rw [← List.countP_eq_length_filter, List.countP_append]
      have : Begins (beginText ++ env.container) := ⟨_, rfl⟩
      have := begins_cons (beginText ++ env.container) rest
      rw [if_pos ‹_›] at this
      rw [← this]
      rfl
    rw [hlen, hb0, compCount] at hc
    have hle := run_size hn hk hr'
    have h0 : size ({ start env with look := false, result := true } : PSt) = 0 := rfl
    have hst : st.stack = [] := by
      cases hs : st.stack with
      | nil => rfl
      | cons f fs =>
        rw [h0] at hle
        simp only [size, hs, List.map_cons, List.sum_cons] at hle
        omega
    have hkeys : stKeys st = keysIn (.mk env.container st.root.props st.root.subs) := by
      simp [stKeys, hst, frameKeys, keysIn]
    have := (run_tail hn hk he hr' hl hst (by rw [hkeys]; exact hend)
      (fun hm => hu (List.mem_append_right _ (List.mem_cons_of_mem _ hm)))
      (by rw [h0]; simp only [size, hst, List.map_nil, List.sum_nil]; omega)).2 rfl
    obtain ⟨body, b2, rfl, h1, h2⟩ := this
    exact ⟨b1, body, b2, rfl, hb, h1, h2⟩

theorem Nest40.readProp_end (l : List Char) (p : CProp) (he : Ends l) (h : readProp l = some p) :
    p.key = "END".toList := by
  obtain ⟨s, rfl⟩ := he
  have hd : PropText.dupToken ("END:".toList ++ s) [';', ':'] = some (some "END".toList, ':' :: s) := by
    simp [PropText.dupToken]
  rw [readProp, PropText.parseText, hd] at h
  simp only at h
  rw [if_neg (by decide)] at h
  split at h
  · rename_i hp
    split at hp
    · simp only [Bool.false_eq_true, if_false, PropText.Parse.ok.injEq, Prod.mk.injEq] at hp
      obtain ⟨-, rfl, -⟩ := hp
      rw [← Option.some.inj h]
      show PropText.upper "END".toList = "END".toList
      decide
    · cases hp
    · cases hp
  · cases h

/-- C40, of `Calendar`: what `Calendar.parse` accepts is what `ContainerBase.parse` accepts without components whose type differs
from VTIMEZONE in case (`C40_fails_zone`), and the result is the same. -/
theorem C40_calendar (env : Env) (ls : List (List Char)) (c : Component) :
    parseCalendar env ls = .ok (some c) ↔ parse env ls = .ok (some c) ∧
      ∀ d ∈ c.subs, PropText.upper d.type = "VTIMEZONE".toList → d.type = "VTIMEZONE".toList := by
  unfold parseCalendar
  split
  · rename_i c' h
    rw [h]
    split
    · rename_i h'
      simp only [List.all_eq_true, decide_eq_true_eq] at h'
      constructor
      · intro h; cases h; exact ⟨rfl, h'⟩
      · rintro ⟨h, _⟩; exact h
    · rename_i h'
      simp only [List.all_eq_true, decide_eq_true_eq] at h'
      constructor
      · intro h; cases h
      · rintro ⟨h, h''⟩; cases h; exact absurd h'' h'
  · rename_i r h
    constructor
    · intro h'; exact absurd h' (h c)
    · rintro ⟨h', _⟩; exact h'

/-- C40, of `Calendar`: accepted data is one complete, properly nested object if nothing that was begun
is missing in the result and nothing in it is called `END`.

Missing: data in which something is begun and not ended, or ended and not begun, `C40_fails_unclosed`,
`C40_fails_mismatch`. -/
theorem C40_calendar_partial (ls : List (List Char)) (c : Component)
    (h : parseCalendar calendarEnv ls = .ok (some c)) (hu : "BEGIN:UNKNOWN".toList ∉ ls)
    (hc : compCount c = (ls.filter fun l => decide (Begins l)).length) (hend : "END".toList ∉ keysIn c) :
    Complete "VCALENDAR".toList ls :=
  C40_sound_partial calendarEnv rfl (by rintro c c' h; cases h; exact ⟨rfl, fun _ h => h⟩)
    Nest40.readProp_end ls c ((C40_calendar calendarEnv ls c).mp h).1 hu hc hend

namespace Nest40

/-- A component that is being read, everything in it where it may be. -/
def FramePlaced (f : Frame) : Prop := ∀ c ∈ f.subs, Takes f.type c.type ∧ Placed c

theorem addSub_placed {f g : Frame} {c : Component} (hf : FramePlaced f) (hc : Placed c)
    (h : addSub f c = .ok g) : FramePlaced g ∧ g.type = f.type := by
  unfold addSub at h
  split at h
  · rename_i ha
    cases h
    refine ⟨?_, rfl⟩
    intro d hd
    rcases List.mem_append.mp hd with hd | hd
    · exact hf d hd
    · rw [List.mem_singleton] at hd
      subst hd
      exact ⟨(takes_iff _ _).mp ha, hc⟩
  · cases h

theorem step_placed {env : Env} (hk : ∀ c c', env.finalise c = some c' → Placed c → Placed c')
    {st st1 : PSt} {l : List Char} (h0 : FramePlaced st.root ∧ st.root.type = env.container)
    (hs : ∀ f ∈ st.stack, FramePlaced f) (h : step env st l = .ok st1) :
    (FramePlaced st1.root ∧ st1.root.type = env.container) ∧ ∀ f ∈ st1.stack, FramePlaced f := by
  have blank : ∀ {st1 : PSt}, blankLine env st = .ok st1 → st1 = st := by
    intro st1 h
    unfold blankLine at h
    split at h
    · cases h
    · exact (Except.ok.inj h).symm
  have prop : ∀ {st1 : PSt}, propLine env st l = .ok st1 →
      (FramePlaced st1.root ∧ st1.root.type = env.container) ∧ ∀ f ∈ st1.stack, FramePlaced f := by
    intro st1 h
    unfold propLine at h
    split at h
    · cases h
    · split at h
      · split at h
        · cases h; exact ⟨h0, hs⟩
        · cases h
      · rename_i f rest hst
        cases h
        refine ⟨h0, ?_⟩
        intro g hg
        rcases List.mem_cons.mp hg with rfl | hg
        · exact hs f (by rw [hst]; simp)
        · exact hs g (by rw [hst]; simp [hg])
  unfold step at h
  split at h
  · split at h
    · cases h; exact ⟨h0, hs⟩
    · split at h
      · rw [blank h]; exact ⟨h0, hs⟩
      · cases h
  · split at h
    · cases h
      refine ⟨h0, ?_⟩
      intro f hf
      rcases List.mem_cons.mp hf with rfl | hf
      · intro c hc; cases hc
      · exact hs f hf
    · split at h
      · cases h; exact ⟨h0, hs⟩
      · split at h
        · rename_i f rest hst
          split at h
          · unfold closeFrame at h
            split at h
            · cases h
            · rename_i c hf
              have hfp := hs f (by rw [hst]; simp)
              have hc : Placed c := hk _ _ hf (.mk (fun d hd => (hfp d hd).1) fun d hd => (hfp d hd).2)
              split at h
              · cases ha : addSub st.root c with
                | error e => rw [ha] at h; cases h
                | ok r =>
                  rw [ha] at h
                  cases h
                  obtain ⟨h1, h2⟩ := addSub_placed h0.1 hc ha
                  exact ⟨⟨h1, h2.trans h0.2⟩, by simp⟩
              · rename_i g rest
                cases ha : addSub g c with
                | error e => rw [ha] at h; cases h
                | ok r =>
                  rw [ha] at h
                  cases h
                  obtain ⟨h1, -⟩ := addSub_placed (hs g (by rw [hst]; simp)) hc ha
                  refine ⟨h0, ?_⟩
                  intro f hf
                  rcases List.mem_cons.mp hf with rfl | hf
                  · exact h1
                  · exact hs f (by rw [hst]; simp [hf])
          · split at h
            · rw [blank h]; exact ⟨h0, hs⟩
            · exact prop h
        · split at h
          · rw [blank h]; exact ⟨h0, hs⟩
          · exact prop h

theorem run_placed {env : Env} (hk : ∀ c c', env.finalise c = some c' → Placed c → Placed c')
    (ls : List (List Char)) : ∀ {st st1 : PSt},
    (FramePlaced st.root ∧ st.root.type = env.container) → (∀ f ∈ st.stack, FramePlaced f) →
    run env st ls = .ok st1 → FramePlaced st1.root ∧ st1.root.type = env.container := by
  induction ls with
  | nil => intro st st1 h0 _ h; cases h; exact h0
  | cons l ls ih =>
    intro st st1 h0 hs h
    obtain ⟨st2, h1, h2⟩ := run_cons h
    obtain ⟨h3, h4⟩ := step_placed hk h0 hs h1
    exact ih h3 h4 h2

end Nest40

/-- C40: in an object that is accepted, every component at any depth is in one that may contain it. -/
theorem C40_placed (env : Env) (hk : ∀ c c', env.finalise c = some c' → Placed c → Placed c')
    (ls : List (List Char)) (c : Component) (h : parse env ls = .ok (some c)) : Placed c := by
  obtain ⟨st, hr, hl, hres, rfl, hv⟩ := parse_ok h
  obtain ⟨h1, h2⟩ := Nest40.run_placed hk ls (st := start env)
    ⟨fun c hc => by simp [start] at hc, rfl⟩ (by simp [start]) hr
  rw [Nest40.FramePlaced, h2] at h1
  exact .mk (fun d hd => (h1 d hd).1) fun d hd => (h1 d hd).2

/-- The condition of `C40_placed` for calendars. -/
example (ls : List (List Char)) (c : Component) (h : parse calendarEnv ls = .ok (some c)) : Placed c :=
  C40_placed calendarEnv (by rintro c c' h; cases h; exact id) ls c h

/-- The lines of a text. -/
def Nest40.doc (l : List String) : List (List Char) := l.map String.toList

def Nest40.version : CProp := ⟨"VERSION".toList, "VERSION:2.0".toList⟩

/-- C40 fails: an event that is begun and never ended is accepted, and is lost. -/
theorem C40_fails_unclosed :
    ∃ c, parse calendarEnv (Nest40.doc ["BEGIN:VCALENDAR", "VERSION:2.0", "BEGIN:VEVENT", "UID:1",
        "END:VCALENDAR"]) = .ok (some c) ∧ c.subs = [] ∧ c.props = [Nest40.version] :=
  ⟨.mk "VCALENDAR".toList [Nest40.version] [], by decide +kernel, rfl, rfl⟩

/-- C40 fails: a delimiter that ends nothing is read as a property, and what it should have ended is
lost. -/
theorem C40_fails_mismatch :
    parse calendarEnv (Nest40.doc ["BEGIN:VCALENDAR", "VERSION:2.0", "BEGIN:VEVENT", "UID:1",
        "END:VTODO", "END:VCALENDAR"]) = .ok (some (.mk "VCALENDAR".toList [Nest40.version] [])) ∧
    parse calendarEnv (Nest40.doc ["BEGIN:VCALENDAR", "VERSION:2.0", "END:VEVENT", "END:VCALENDAR"]) =
      .ok (some (.mk "VCALENDAR".toList
        [Nest40.version, ⟨"END".toList, "END:VEVENT".toList⟩] [])) :=
  ⟨by decide +kernel, by decide +kernel⟩

/-- C40 fails: two objects are accepted and become one; the second needs no VERSION. -/
theorem C40_fails_twice :
    parse calendarEnv (Nest40.doc ["BEGIN:VCALENDAR", "VERSION:2.0", "END:VCALENDAR",
        "BEGIN:VCALENDAR", "PRODID:a", "END:VCALENDAR"]) =
      .ok (some (.mk "VCALENDAR".toList [Nest40.version, ⟨"PRODID".toList, "PRODID:a".toList⟩] [])) := by
  decide +kernel

/-- C40 fails: after an event that is not ended, what follows in a second object goes into the event
and is lost with it. -/
theorem C40_fails_leftover :
    parse calendarEnv (Nest40.doc ["BEGIN:VCALENDAR", "VERSION:2.0", "BEGIN:VEVENT", "END:VCALENDAR",
        "BEGIN:VCALENDAR", "PRODID:a", "END:VCALENDAR"]) =
      .ok (some (.mk "VCALENDAR".toList [Nest40.version] [])) := by
  decide +kernel

/-- C40 fails: a component called `UNKNOWN` is ended by `END:` alone, and is otherwise lost. -/
theorem C40_fails_unknown :
    parse calendarEnv (Nest40.doc ["BEGIN:VCALENDAR", "VERSION:2.0", "BEGIN:UNKNOWN", "UID:1",
        "END:UNKNOWN", "END:VCALENDAR"]) = .ok (some (.mk "VCALENDAR".toList [Nest40.version] [])) ∧
    parse calendarEnv (Nest40.doc ["BEGIN:VCALENDAR", "VERSION:2.0", "BEGIN:UNKNOWN", "UID:1", "END:",
        "END:VCALENDAR"]) = .ok (some (.mk "VCALENDAR".toList [Nest40.version]
          [.mk [] [⟨"UID".toList, "UID:1".toList⟩] []])) :=
  ⟨by decide +kernel, by decide +kernel⟩

/-- C40 fails: data that is not accepted need not be rejected with `InvalidData`; a VTODO in a VEVENT is
`ValueError`, and no data at all gives `None` without an exception. -/
theorem C40_fails_errors :
    parse calendarEnv (Nest40.doc ["BEGIN:VCALENDAR", "VERSION:2.0", "BEGIN:VEVENT", "BEGIN:VTODO",
        "END:VTODO", "END:VEVENT", "END:VCALENDAR"]) = .error .valueError ∧
    parse calendarEnv [] = .ok none :=
  ⟨by decide +kernel, by decide +kernel⟩

/-- C40 fails: a calendar with a time zone whose delimiters are in small letters, which the standard allows, is not accepted but
raises `AttributeError`; other components in small letters are accepted. -/
theorem C40_fails_zone :
    parseCalendar calendarEnv (Nest40.doc ["BEGIN:VCALENDAR", "VERSION:2.0", "BEGIN:vtimezone", "TZID:a", "END:vtimezone",
        "END:VCALENDAR"]) = .error .attributeError ∧
    parseCalendar calendarEnv (Nest40.doc ["BEGIN:VCALENDAR", "VERSION:2.0", "BEGIN:VTIMEZONE", "TZID:a", "END:VTIMEZONE",
        "BEGIN:vevent", "UID:1", "END:vevent", "END:VCALENDAR"]) = .ok (some (.mk "VCALENDAR".toList [Nest40.version]
          [.mk "VTIMEZONE".toList [⟨"TZID".toList, "TZID:a".toList⟩] [], .mk "vevent".toList [⟨"UID".toList, "UID:1".toList⟩] []])) :=
  ⟨by decide +kernel, by decide +kernel⟩

/-- C40 fails: the version is only checked when its name is in capital letters. -/
theorem C40_fails_version :
    parse calendarEnv (Nest40.doc ["BEGIN:VCALENDAR", "version:1.0", "END:VCALENDAR"]) =
      .ok (some (.mk "VCALENDAR".toList [⟨"version".toList, "version:1.0".toList⟩] [])) ∧
    parse calendarEnv (Nest40.doc ["BEGIN:VCALENDAR", "VERSION:1.0", "END:VCALENDAR"]) =
      .error .invalidData :=
  ⟨by decide +kernel, by decide +kernel⟩

/-- An event with an alarm, a blank line before it and one in it: accepted, and the conditions of
`C40_calendar_partial` hold. -/
def Nest40.event : Component := .mk "VEVENT".toList [⟨"UID".toList, "UID:1".toList⟩]
  [.mk "VALARM".toList [⟨"ACTION".toList, "ACTION:AUDIO".toList⟩] []]

def Nest40.eventDoc : List (List Char) := Nest40.doc ["", "BEGIN:VCALENDAR", "VERSION:2.0",
  "BEGIN:VEVENT", "UID:1", "", "BEGIN:VALARM", "ACTION:AUDIO", "END:VALARM", "END:VEVENT",
  "END:VCALENDAR"]

example : parseCalendar calendarEnv Nest40.eventDoc =
      .ok (some (.mk "VCALENDAR".toList [Nest40.version] [Nest40.event])) ∧
    "BEGIN:UNKNOWN".toList ∉ Nest40.eventDoc ∧
    compCount (.mk "VCALENDAR".toList [Nest40.version] [Nest40.event]) =
      (Nest40.eventDoc.filter fun l => decide (Begins l)).length ∧
    "END".toList ∉ keysIn (.mk "VCALENDAR".toList [Nest40.version] [Nest40.event]) :=
  ⟨by decide +kernel, by decide +kernel, by decide +kernel, by decide +kernel⟩

/-- The hypotheses of `C40_complete` for it. -/
example : Body calendarEnv true "VCALENDAR".toList
    (Nest40.doc ["VERSION:2.0", "BEGIN:VEVENT", "UID:1", "", "BEGIN:VALARM", "ACTION:AUDIO",
      "END:VALARM", "END:VEVENT"]) [Nest40.version] [Nest40.event] := by
  refine .prop (by decide) (by decide) (by decide) (by decide +kernel) (fun _ => by decide +kernel) ?_
  refine Body.comp "VEVENT".toList (by decide) (by decide) rfl (by decide)
    (body := Nest40.doc ["UID:1", "", "BEGIN:VALARM", "ACTION:AUDIO", "END:VALARM"]) (ls := []) ?_ .nil
  refine .prop (by decide) (by decide) (by decide) (by decide +kernel) (by simp) ?_
  refine .blank rfl ?_
  refine Body.comp "VALARM".toList (by decide) (by decide) rfl (by decide)
    (body := Nest40.doc ["ACTION:AUDIO"]) (ls := []) ?_ .nil
  exact .prop (by decide) (by decide) (by decide) (by decide +kernel) (by simp) .nil

end PyCal
