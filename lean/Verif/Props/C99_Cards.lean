import Verif.Model.Cards
import Verif.Props.C92_Files

/-!
# C99: several cards in one text
-/

namespace Spec
open PyCal Cont PropText

/-- The lines between `BEGIN:VCARD` and `END:VCARD` and the properties that they say. -/
inductive CardBody (env : Cards.Env) : List (List Char) → List CProp → Prop
  | nil : CardBody env [] []
  | blank {ls ps} (h : env.blankRaise = false) : CardBody env ls ps → CardBody env ([] :: ls) ps
  | prop {l p ls ps} (h0 : l ≠ []) (he : l ≠ "END:VCARD".toList) (hp : env.parseProp l = .ok p)
      (hv : env.valid p = true) : CardBody env ls ps → CardBody env (l :: ls) (p :: ps)

/-- A text of cards, one after another, each with a VERSION, and the properties of each. -/
inductive CardText (env : Cards.Env) : List (List Char) → List (List CProp) → Prop
  | nil : CardText env [] []
  | blank {ls pss} (h : env.blankRaise = false) : CardText env ls pss → CardText env ([] :: ls) pss
  | card {body ps ls pss} (hb : CardBody env body ps) (hv : ∃ p ∈ ps, upper p.name = "VERSION".toList) :
      CardText env ls pss →
      CardText env ("BEGIN:VCARD".toList :: (body ++ "END:VCARD".toList :: ls)) (ps :: pss)

/-- A property of a card that can be written in a line: as `PlainLine`, but it may have a group. -/
structure CardLine (l : Line) : Prop where
  name : IsName l.name
  begin_ : l.group = none → l.name ≠ "BEGIN".toList
  end_ : l.group = none → l.name ≠ "END".toList
  group : ∀ g, l.group = some g → IsName g
  params : ∀ p ∈ l.params, IsName p.name ∧ p.values ≠ [] ∧ ∀ v ∈ p.values, ValueOk v
  value : '\n' ∉ l.value
  version : l.name = "VERSION".toList → l.value = "3.0".toList

/-- A card with these properties. -/
def cardOf (ls : List Line) : Component :=
  .mk "VCARD".toList (ls.map fun l => ⟨l.name, PropText.generate l⟩) []

end Spec

namespace PyCal
open Cont Spec PropText TextFile Cards

namespace Card99

theorem begin_ne : ("BEGIN:VCARD".toList : List Char) ≠ [] := by decide
theorem end_ne : ("END:VCARD".toList : List Char) ≠ [] := by decide

theorem any_version (ps : List CProp) :
    (ps.any fun p => decide (p.key = "VERSION".toList)) = true ↔
      ∃ p ∈ ps, upper p.name = "VERSION".toList := by
  rw [List.any_eq_true]
  constructor
  · rintro ⟨p, hp, h⟩; exact ⟨p, hp, of_decide_eq_true h⟩
  · rintro ⟨p, hp, h⟩; exact ⟨p, hp, decide_eq_true h⟩

theorem loop_body {env : Cards.Env} {body : List (List Char)} {ps : List CProp}
    (h : CardBody env body ps) : ∀ (acc : List CProp) (res : List Component) (ls : List (List Char)),
    Cards.loop env false acc res (body ++ ls) = Cards.loop env false (acc ++ ps) res ls := by
  induction h with
  | nil => intro acc res ls; simp
  | blank h _ ih =>
    intro acc res ls
    rw [List.cons_append, Cards.loop]
    simp only [Bool.false_eq_true, if_false, h, if_true]
    rw [if_neg (by decide), ih]
  | prop h0 he hp hv _ ih =>
    intro acc res ls
    rw [List.cons_append, Cards.loop]
    simp only [Bool.false_eq_true, if_false, hp, hv, Bool.not_true, if_neg h0]
    rw [if_neg (by exact he), ih]
    simp

theorem loop_text {env : Cards.Env} {ls : List (List Char)} {pss : List (List CProp)}
    (h : CardText env ls pss) : ∀ (res : List Component) (rest : List (List Char)),
    Cards.loop env true [] res (ls ++ rest) =
      Cards.loop env true [] (res ++ pss.map fun ps => .mk vcard ps []) rest := by
  induction h with
  | nil => intro res rest; simp
  | blank h _ ih =>
    intro res rest
    rw [List.cons_append, Cards.loop]
    simp only [if_true, h, Bool.false_eq_true, if_false]
    rw [if_neg (by decide), ih]
  | @card body ps ls pss hb hv _ ih =>
    intro res rest
    rw [List.cons_append, Cards.loop]
    simp only [if_true]
    rw [if_pos (by rfl), List.append_assoc, loop_body hb, List.cons_append, Cards.loop]
    simp only [Bool.false_eq_true, if_false]
    rw [if_pos (by rfl), List.nil_append, if_neg, ih]
    · simp
    · rw [(any_version ps).mpr hv]; simp

theorem loop_inv {env : Cards.Env} : ∀ (n : Nat) (ls : List (List Char)), ls.length ≤ n →
    (∀ (res : List Component) (cs : List Component), Cards.loop env true [] res ls = .ok cs →
      ∃ pss, CardText env ls pss ∧ cs = res ++ pss.map fun ps => .mk vcard ps []) ∧
    (∀ (acc : List CProp) (res : List Component) (cs : List Component),
      Cards.loop env false acc res ls = .ok cs →
      ∃ body ps ls' pss, ls = body ++ "END:VCARD".toList :: ls' ∧ CardBody env body ps ∧
        (∃ p ∈ acc ++ ps, upper p.name = "VERSION".toList) ∧ CardText env ls' pss ∧
        cs = res ++ .mk vcard (acc ++ ps) [] :: pss.map fun ps => .mk vcard ps []) := by
  intro n
  induction n with
  | zero =>
    intro ls hl
    obtain rfl : ls = [] := List.length_eq_zero_iff.mp (by omega)
    constructor
    · intro res cs h
      rw [Cards.loop] at h
      simp only [if_true, Res.ok.injEq] at h
      exact ⟨[], .nil, by simp [h]⟩
    · intro acc res cs h
      rw [Cards.loop] at h
      simp at h
  | succ n ih =>
    intro ls hl
    cases ls with
    | nil =>
      constructor
      · intro res cs h
        rw [Cards.loop] at h
        simp only [if_true, Res.ok.injEq] at h
        exact ⟨[], .nil, by simp [h]⟩
      · intro acc res cs h
        rw [Cards.loop] at h
        simp at h
    | cons l ls =>
      obtain ⟨ih1, ih2⟩ := ih ls (by simpa using hl)
      constructor
      · intro res cs h
        rw [Cards.loop] at h
        simp only [if_true] at h
        split at h
        · rename_i he
          obtain ⟨body, ps, ls', pss, rfl, h2, h3, h4, rfl⟩ := ih2 _ _ _ h
          subst he
          exact ⟨ps :: pss, .card h2 (by simpa using h3) h4, by simp⟩
        · split at h
          · rename_i he
            split at h
            · cases h
            · rename_i hb
              obtain ⟨pss, h1, h2⟩ := ih1 _ _ h
              subst he
              exact ⟨pss, .blank (by simpa using hb) h1, h2⟩
          · cases h
      · intro acc res cs h
        rw [Cards.loop] at h
        simp only [Bool.false_eq_true, if_false] at h
        split at h
        · rename_i he
          split at h
          · cases h
          · rename_i hv
            obtain ⟨pss, h1, h2⟩ := ih1 _ _ h
            rw [Bool.not_eq_true, Bool.not_eq_false'] at hv
            rw [List.append_assoc] at h2
            refine ⟨[], [], ls, pss, by rw [he]; rfl, .nil, ?_, h1, ?_⟩
            · rw [List.append_nil]
              exact (any_version acc).mp hv
            · rw [List.append_nil]
              exact h2
        · rename_i he
          split at h
          · rename_i h0
            split at h
            · cases h
            · rename_i hb
              obtain ⟨body, ps, ls', pss, rfl, h2, h3, h4, h5⟩ := ih2 _ _ _ h
              subst h0
              exact ⟨[] :: body, ps, ls', pss, rfl, .blank (by simpa using hb) h2, h3, h4, h5⟩
          · rename_i h0
            split at h
            · cases h
            · cases h
            · rename_i p hp
              split at h
              · cases h
              · rename_i hv
                obtain ⟨body, ps, ls', pss, rfl, h2, h3, h4, h5⟩ := ih2 _ _ _ h
                refine ⟨l :: body, p :: ps, ls', pss, rfl, .prop h0 he hp (by simpa using hv) h2, ?_, h4, ?_⟩
                · simpa using h3
                · simpa using h5

end Card99
open Card99

/-- C99: exactly the texts of complete cards one after another are accepted, and the cards are those in
the text, in order, each with exactly its own properties. -/
theorem C99_exact (env : Cards.Env) (ls : List (List Char)) (cs : List Component) :
    parseMultiple env ls = .ok cs ↔
      ∃ pss, CardText env ls pss ∧ cs = pss.map fun ps => .mk "VCARD".toList ps [] := by
  constructor
  · intro h
    obtain ⟨pss, h1, h2⟩ := (loop_inv ls.length ls le_rfl).1 [] cs h
    exact ⟨pss, h1, h2⟩
  · rintro ⟨pss, h1, rfl⟩
    have := loop_text h1 [] []
    rw [List.append_nil, List.nil_append] at this
    rw [parseMultiple, this, Cards.loop]
    rfl

/-- C99: if a text of cards is followed by another text, its cards come first, and all else, also an
exception, is as if the other had been read alone. -/
theorem C99_append (env : Cards.Env) (a b : List (List Char)) (cs : List Component)
    (h : parseMultiple env a = .ok cs) :
    parseMultiple env (a ++ b) = (parseMultiple env b).map fun ds => cs ++ ds := by
  obtain ⟨pss, h1, rfl⟩ := (C99_exact env a cs).mp h
  have := loop_text h1 [] b
  rw [List.nil_append] at this
  rw [parseMultiple, this, parseMultiple]
  have key : ∀ (n : Nat) (ls : List (List Char)), ls.length ≤ n → ∀ look acc (res res' : List Component),
      Cards.loop env look acc (res ++ res') ls = (Cards.loop env look acc res' ls).map fun ds => res ++ ds := by
    intro n
    induction n with
    | zero =>
      intro ls hl look acc res res'
      obtain rfl : ls = [] := List.length_eq_zero_iff.mp (by omega)
      rw [Cards.loop, Cards.loop]
      split <;> rfl
    | succ n ih =>
      intro ls hl look acc res res'
      cases ls with
      | nil =>
        rw [Cards.loop, Cards.loop]
        split <;> rfl
      | cons l ls =>
        have ih := ih ls (by simpa using hl)
        rw [Cards.loop, Cards.loop]
        repeat' split
        all_goals first | rfl | exact ih _ _ _ _ | skip
        rw [List.append_assoc]
        exact ih _ _ _ _
  have := key b.length b le_rfl true [] (pss.map fun ps => .mk vcard ps []) []
  rw [List.append_nil] at this
  exact this

/-- C99: blank lines, anywhere in the text, make no difference. -/
theorem C99_blank (ls : List (List Char)) :
    parseMultiple cardEnv (ls.filter fun l => decide (l ≠ [])) = parseMultiple cardEnv ls := by
  have key : ∀ (ls : List (List Char)) look acc (res : List Component),
      Cards.loop cardEnv look acc res (ls.filter fun l => decide (l ≠ [])) = Cards.loop cardEnv look acc res ls := by
    intro ls
    induction ls with
    | nil => intros; rfl
    | cons l ls ih =>
      intro look acc res
      by_cases hl : l = []
      · subst hl
        rw [List.filter_cons_of_neg (by simp), ih]
        conv_rhs => unfold Cards.loop
        have h1 : ([] : List Char) ≠ beginText ++ vcard := by simp [beginText]
        have h2 : ([] : List Char) ≠ endText ++ vcard := by simp [endText]
        have h3 : cardEnv.blankRaise = false := rfl
        rw [if_neg h1, if_neg h2, if_pos rfl, if_pos rfl, h3]
        cases look <;> rfl
      · rw [List.filter_cons_of_pos (by simpa using hl)]
        unfold Cards.loop
        simp only [ih]
  exact key ls true [] []

/-- C99: every card read has a VERSION and no components, and a property called `VERSION` says 3.0. -/
theorem C99_version (ls : List (List Char)) (cs : List Component) (h : parseMultiple cardEnv ls = .ok cs) :
    ∀ c ∈ cs, c.type = "VCARD".toList ∧ c.subs = [] ∧
      (∃ p ∈ c.props, upper p.name = "VERSION".toList) ∧
      ∀ p ∈ c.props, p.name = "VERSION".toList → Cards.textValue p.text = some "3.0".toList := by
  obtain ⟨pss, h1, rfl⟩ := (C99_exact _ ls cs).mp h
  clear h
  have hbody : ∀ {body ps}, CardBody cardEnv body ps → ∀ p ∈ ps, p.name = "VERSION".toList →
      Cards.textValue p.text = some "3.0".toList := by
    intro body ps h
    induction h with
    | nil => simp
    | blank _ _ ih => exact ih
    | prop _ _ _ hv _ ih =>
      intro p hp hn
      rcases List.mem_cons.1 hp with rfl | hp
      · have : validCard p = true := hv
        rw [validCard, if_pos hn] at this
        exact of_decide_eq_true this
      · exact ih p hp hn
  induction h1 with
  | nil => simp
  | blank _ _ ih => exact ih
  | card hb hv _ ih =>
    intro c hc
    rw [List.map_cons] at hc
    rcases List.mem_cons.1 hc with rfl | hc
    · exact ⟨rfl, rfl, hv, hbody hb⟩
    · exact ih c hc

namespace Card99

theorem generate_noLF {l : Line} (h : CardLine l) : '\n' ∉ PropText.generate l := by
  have hp : PlainLine { l with group := none, name := "A".toList } :=
    ⟨show IsName "A".toList by decide, show "A".toList ≠ "BEGIN".toList by decide,
      show "A".toList ≠ "END".toList by decide, rfl, h.params, h.value⟩
  have := File92.generate_noLF hp
  unfold PropText.generate at this ⊢
  simp only [List.nil_append, List.mem_append, not_or] at this ⊢
  refine ⟨⟨⟨?_, File92.name_noLF h.name⟩, this.1.2⟩, this.2⟩
  cases hg : l.group with
  | none => simp
  | some g =>
    have := File92.name_noLF (h.group g hg)
    simp only
    split
    · simp
    · simp [this]

theorem generate_form {l : Line} (h : CardLine l) : ∃ s d r, PropText.generate l = s ++ d :: r ∧
    IsName s ∧ (l.group = none ∧ s = l.name ∧ (d = ';' ∨ d = ':') ∨
      ∃ g, l.group = some g ∧ s = g ∧ d = '.') := by
  cases hg : l.group with
  | none =>
    have hp : PlainLine l := ⟨h.name, h.begin_ hg, h.end_ hg, hg, h.params, h.value⟩
    obtain ⟨d, r, e, hd⟩ := File92.generate_form hp
    exact ⟨l.name, d, r, e, h.name, .inl ⟨rfl, rfl, hd⟩⟩
  | some g =>
    have hgn := h.group g hg
    refine ⟨g, '.', l.name ++ (((l.params.insertionSort fun a b => a.key ≤ b.key).flatMap fun p =>
      ';' :: genParam p) ++ ':' :: l.value), ?_, hgn, .inr ⟨g, rfl, rfl, rfl⟩⟩
    unfold PropText.generate
    rw [hg]
    simp only [if_neg hgn.1, List.append_assoc, List.cons_append, List.nil_append]

theorem read_text {l : Line} (h : CardLine l) : ∃ ps,
    parseText true {} (PropText.generate l) = .ok (l.group, l.name, ps, some l.value) ∧
      SameParams l.params ps := by
  refine C46_roundtrip_partial true {} l (File92.token_of_name h.name) ?_ ?_
  · cases hg : l.group with
    | none => exact .inl rfl
    | some g => exact .inr ⟨rfl, g, rfl, File92.token_of_name (h.group g hg)⟩
  · intro p hp
    obtain ⟨h1, h2, h3⟩ := h.params p hp
    exact ⟨File92.token_of_name h1, h3, fun e => absurd e h2⟩

theorem read_back {l : Line} (h : CardLine l) :
    PropText.generate l ≠ [] ∧ PropText.generate l ≠ "END:VCARD".toList ∧
      Cards.readProp (PropText.generate l) = .ok ⟨l.name, PropText.generate l⟩ ∧
      validCard ⟨l.name, PropText.generate l⟩ = true := by
  obtain ⟨s, d, r, hg, hs, hd⟩ := generate_form h
  have ht := File92.token_of_name hs
  have hc : ':' ∉ s := fun hc => ht.2 _ hc (by decide)
  obtain ⟨ps, h1, -⟩ := read_text h
  refine ⟨by rw [hg]; simp, ?_, by rw [Cards.readProp, h1], ?_⟩
  · intro he
    have hb : "END".toList ++ [':'] <+: s ++ d :: r := by
      rw [← hg, he]
      decide
    have hd' : d ∉ "END".toList := by
      rcases hd with ⟨-, -, rfl | rfl⟩ | ⟨g, -, -, rfl⟩ <;> decide
    have hname := File92.prefix_name (by decide) hd' hc hb
    rcases hd with ⟨hn, rfl, -⟩ | ⟨g, -, rfl, rfl⟩
    · exact h.end_ hn hname.symm
    · rw [hg, ← hname] at he
      have h3 : ("END".toList ++ '.' :: r)[3]? = some '.' := rfl
      rw [he] at h3
      exact absurd h3 (by decide)
  · rw [validCard]
    split
    · rename_i hn
      rw [Cards.textValue, h1]
      simp only [h.version hn]
      exact decide_eq_true (show decodeText .fix .raise "3.0".toList = some "3.0".toList by decide +kernel)
    · rfl

theorem body_of (ps : List CProp) (h : ∀ p ∈ ps, p.text ≠ [] ∧ p.text ≠ "END:VCARD".toList ∧
    Cards.readProp p.text = .ok p ∧ validCard p = true) : CardBody cardEnv (ps.map CProp.text) ps := by
  induction ps with
  | nil => exact .nil
  | cons p ps ih =>
    obtain ⟨h1, h2, h3, h4⟩ := h p (by simp)
    exact .prop h1 h2 h3 h4 (ih fun q hq => h q (List.mem_cons_of_mem _ hq))

/-- The lines written for a card. -/
def linesOf (o : Order) (c : List Line) : List (List Char) :=
  "BEGIN:VCARD".toList :: ((writtenProps (o.keyOrder vcard)
    (c.map fun l => ⟨l.name, PropText.generate l⟩)).map CProp.text ++ ["END:VCARD".toList])

theorem generate_card (o : Order) (heq : ∀ a b, o.eq a b = true → a.type = b.type) (c : List Line) :
    Cont.generate o (cardOf c) = some (linesOf o c) := by
  obtain ⟨l, hl, hperm⟩ := Ord42.sortedTagged_perm heq vcard (cs := tag []) (by simp [tag])
  obtain rfl : l = [] := by simpa [tag] using hperm
  rw [cardOf, Cont.generate, generateAll]
  have hl' : sortedTagged o "VCARD".toList (tag []) = some [] := hl
  rw [hl']
  simp only [List.flatMap_nil, List.append_nil]
  rfl

end Card99

/-- C99 (partial): the texts written for cards, one after another, are read as the same cards in the same
order, with the same group, name, parameters and value in every property.  Missing: what is missing in
C46; binary photos, which are folded by a loop of their own; the values are in the theorems about each
type. -/
theorem C99_roundtrip_partial (o : Order) (heq : ∀ a b, o.eq a b = true → a.type = b.type)
    (cards : List (List Line)) (hl : ∀ c ∈ cards, ∀ l ∈ c, CardLine l)
    (hv : ∀ c ∈ cards, ∃ l ∈ c, upper l.name = "VERSION".toList) :
    ∃ texts lines cards', (cards.map cardOf).mapM (writeText o) = some texts ∧
      (∀ n, lines.length < n → readLines n none texts.flatten = some (lines.map utf8)) ∧
      parseMultiple cardEnv lines = .ok cards' ∧ List.Forall₂ Same (cards.map cardOf) cards' ∧
      ∀ c ∈ cards, ∀ l ∈ c, ∃ params,
        parseText true {} (PropText.generate l) = .ok (l.group, l.name, params, some l.value) ∧
          SameParams l.params params := by
  have hlines : ∀ c ∈ cards, ∀ l ∈ linesOf o c, '\n' ∉ l ∧ ∃ a r, l = a :: r ∧
      (a.isAlphanum = true ∨ a = '-') := by
    intro c hc l h
    simp only [linesOf, List.mem_cons, List.mem_append, List.not_mem_nil, or_false] at h
    rcases h with rfl | h | rfl
    · exact ⟨by decide, 'B', _, rfl, by decide⟩
    · obtain ⟨p, hp, rfl⟩ := List.mem_map.1 h
      obtain ⟨l, hm, rfl⟩ := List.mem_map.1 ((C42_properties _ _).subset hp)
      have hcl := hl c hc l hm
      refine ⟨Card99.generate_noLF hcl, ?_⟩
      obtain ⟨s, d, r, hg, hs, -⟩ := Card99.generate_form hcl
      cases s with
      | nil => exact absurd rfl hs.1
      | cons a s => exact ⟨a, s ++ d :: r, hg, hs.2 a (by simp)⟩
    · exact ⟨by decide, 'E', _, rfl, by decide⟩
  have hbytes : ∃ texts outs, (cards.map cardOf).mapM (writeText o) = some texts ∧
      texts.flatten = outs.flatten ∧
      List.Forall₂ File92.Folded ((cards.flatMap (linesOf o)).map utf8) outs ∧
      ∀ t ∈ (cards.flatMap (linesOf o)).map utf8, StartsNonSpace t := by
    clear hv hl
    induction cards with
    | nil => exact ⟨[], [], rfl, rfl, .nil, by simp⟩
    | cons c cs ih =>
      obtain ⟨texts, outs, h1, h2, h3, h4⟩ := ih fun c hc => hlines c (List.mem_cons_of_mem _ hc)
      obtain ⟨outs', e1, e2, e3⟩ := File92.lines_ok (hlines c (by simp))
      refine ⟨outs'.flatten :: texts, outs' ++ outs, ?_, ?_, ?_, ?_⟩
      · rw [List.map_cons, List.mapM_cons, h1, writeText, generate_card o heq]
        simp only [e1]
        rfl
      · simp [h2]
      · rw [List.flatMap_cons, List.map_append]
        exact List.rel_append e2 h3
      · rw [List.flatMap_cons, List.map_append]
        intro t ht
        rcases List.mem_append.1 ht with ht | ht
        · exact e3 t ht
        · exact h4 t ht
  obtain ⟨texts, outs, h1, h2, h3, h4⟩ := hbytes
  have hprops : ∀ c ∈ cards, ∀ p ∈ c.map (fun l => (⟨l.name, PropText.generate l⟩ : CProp)),
      p.text ≠ [] ∧ p.text ≠ "END:VCARD".toList ∧ Cards.readProp p.text = .ok p ∧
        validCard p = true := by
    intro c hc p hp
    obtain ⟨l, hm, rfl⟩ := List.mem_map.1 hp
    exact Card99.read_back (hl c hc l hm)
  have htext : CardText cardEnv (cards.flatMap (linesOf o)) (cards.map fun c =>
      writtenProps (o.keyOrder vcard) (c.map fun l => ⟨l.name, PropText.generate l⟩)) := by
    clear h1 h2 h3 h4 hlines hl
    induction cards with
    | nil => exact .nil
    | cons c cs ih =>
      have ih := ih (fun c hc => hv c (List.mem_cons_of_mem _ hc))
        fun c hc => hprops c (List.mem_cons_of_mem _ hc)
      rw [List.flatMap_cons, List.map_cons, linesOf]
      simp only [List.cons_append, List.append_assoc, List.nil_append]
      have hperm := C42_properties (o.keyOrder vcard)
        (c.map fun l => (⟨l.name, PropText.generate l⟩ : CProp))
      refine .card (body_of _ fun p hp => hprops c (by simp) p (hperm.subset hp)) ?_ ih
      obtain ⟨l, hm, hn⟩ := hv c (by simp)
      exact ⟨_, hperm.symm.subset (List.mem_map_of_mem hm), hn⟩
  refine ⟨texts, cards.flatMap (linesOf o), _, h1, ?_, (C99_exact _ _ _).mpr ⟨_, htext, rfl⟩, ?_,
    fun c hc l hm => Card99.read_text (hl c hc l hm)⟩
  · intro n hn
    rw [h2]
    exact (File92.read_lines h3 h4).1 n (by simpa using hn)
  · rw [List.map_map]
    clear h1 h2 h3 h4 hlines hl htext hprops hv
    induction cards with
    | nil => exact .nil
    | cons c cs ih =>
      refine .cons ?_ ih
      exact .mk (C42_same_name _ _) (List.Perm.refl []) .nil

/-- C99 fails: if the end of a card is missing, the card after it is taken for a part of it, whatever the
two are; there is no exception and one card with the properties of both, and a property called `BEGIN`. -/
theorem C99_fails_truncated (env : Cards.Env) (a b : List (List Char)) (ps qs : List CProp) (p : CProp)
    (ha : CardBody env a ps) (hb : CardBody env b qs)
    (hp : env.parseProp "BEGIN:VCARD".toList = .ok p) (hv : env.valid p = true)
    (hver : ∃ p ∈ ps ++ qs, upper p.name = "VERSION".toList) :
    parseMultiple env ("BEGIN:VCARD".toList :: (a ++ "BEGIN:VCARD".toList :: (b ++ ["END:VCARD".toList]))) =
      .ok [.mk "VCARD".toList (ps ++ p :: qs) []] := by
  rw [C99_exact]
  have : ∀ {a ps}, CardBody env a ps → ∀ {b qs}, CardBody env b qs → CardBody env (a ++ b) (ps ++ qs) := by
    intro a ps h b qs hb
    induction h with
    | nil => exact hb
    | blank h _ ih => exact .blank h ih
    | prop h0 he hp hv _ ih => exact .prop h0 he hp hv ih
  have h := this ha (.prop begin_ne (by decide) hp hv hb)
  refine ⟨[ps ++ p :: qs], ?_, rfl⟩
  have hc := CardText.card (pss := []) h (by
    obtain ⟨q, hq, hn⟩ := hver
    refine ⟨q, ?_, hn⟩
    simp only [List.mem_append, List.mem_cons] at hq ⊢
    tauto) .nil
  simpa using hc

/-- That happens with the default settings. -/
example : parseMultiple cardEnv (Nest40.doc ["BEGIN:VCARD", "VERSION:3.0", "FN:a", "BEGIN:VCARD",
      "VERSION:3.0", "FN:b", "END:VCARD"]) =
    .ok [.mk vcard [Tree41.prop "VERSION" "VERSION:3.0", Tree41.prop "FN" "FN:a",
      Tree41.prop "BEGIN" "BEGIN:VCARD", Tree41.prop "VERSION" "VERSION:3.0", Tree41.prop "FN" "FN:b"] []] := by
  decide +kernel

/-- C99 fails: a version that is not supported is accepted if its name is not in capitals. -/
theorem C99_fails_version :
    parseMultiple cardEnv (Nest40.doc ["BEGIN:VCARD", "VERSION:4.0", "FN:a", "END:VCARD"]) = .invalidData ∧
    parseMultiple cardEnv (Nest40.doc ["BEGIN:VCARD", "Version:4.0", "FN:a", "END:VCARD"]) =
      .ok [.mk vcard [Tree41.prop "Version" "Version:4.0", Tree41.prop "FN" "FN:a"] []] :=
  ⟨by decide +kernel, by decide +kernel⟩

/-- C99 fails: there are texts on which the reading does not end. -/
theorem C99_fails_hang :
    parseMultiple cardEnv (Nest40.doc ["BEGIN:VCARD", "VERSION:3.0", "TEL;TYPE=\"a\"b:1", "END:VCARD"]) =
      .hang := by
  decide +kernel

namespace Card99

def version : Line := ⟨none, "VERSION".toList, [], "3.0".toList⟩

/-- A property with a group, as address books write them, and a value of more than one byte a character. -/
def label : Line := ⟨some "item1".toList, "X-ABLabel".toList, [⟨"TYPE".toList, ["a:b".toList]⟩],
  escapeText ("a\n;".toList ++ List.replicate 60 'é')⟩

def full (s : String) : Line := ⟨none, "FN".toList, [], s.toList⟩

end Card99

/-- The conditions hold for two such cards. -/
example : (∀ c ∈ [[Card99.version, Card99.label], [Card99.full "b", Card99.version]],
      ∀ l ∈ c, CardLine l) ∧
    (∀ c ∈ [[Card99.version, Card99.label], [Card99.full "b", Card99.version]],
      ∃ l ∈ c, upper l.name = "VERSION".toList) ∧
    (∃ b, writeText Tree41.plain (cardOf [Card99.version, Card99.label]) = some b ∧ b.length = 197) := by
  have hv : CardLine Card99.version :=
    ⟨by decide, by decide, by decide, by simp [Card99.version], by simp [Card99.version], by decide,
      fun _ => rfl⟩
  have hf : CardLine (Card99.full "b") :=
    ⟨by decide, by decide, by decide, by simp [Card99.full], by simp [Card99.full], by decide, by decide⟩
  have hl : CardLine Card99.label := by
    refine ⟨by decide, by decide, by decide, ?_, ?_, (C20_no_linebreak _).2, by decide⟩
    · intro g hg
      simp only [Card99.label, Option.some.injEq] at hg
      subst hg
      decide
    · intro p hp
      simp only [Card99.label, List.mem_cons, List.not_mem_nil, or_false] at hp
      subst hp
      decide
  refine ⟨?_, ?_, ?_⟩
  · intro c hc l h
    simp only [List.mem_cons, List.not_mem_nil, or_false] at hc
    rcases hc with rfl | rfl
    · simp only [List.mem_cons, List.not_mem_nil, or_false] at h
      rcases h with rfl | rfl
      · exact hv
      · exact hl
    · simp only [List.mem_cons, List.not_mem_nil, or_false] at h
      rcases h with rfl | rfl
      · exact hf
      · exact hv
  · intro c hc
    refine ⟨Card99.version, ?_, by decide⟩
    simp only [List.mem_cons, List.not_mem_nil, or_false] at hc
    rcases hc with rfl | rfl <;> simp
  · have : (writeText Tree41.plain (cardOf [Card99.version, Card99.label])).map List.length = some 197 := by
      decide +kernel
    rw [Option.map_eq_some_iff] at this
    exact this

end PyCal
