import Verif.Model.TimezoneDb
import Verif.Spec.Path

/-!
# C38: the file looked up for a TZID is inside the database directory
-/

namespace PyCal
open Spec

/-! ## Reading paths -/

/-- The state when a part of a path has been read. -/
def readPath (at_ : List (List Char)) (name : List Char) : List Char → List (List Char) × List Char
  | [] => (at_, name)
  | c :: s => if c = '/' then readPath (pathStep at_ name) [] s else readPath at_ (name ++ [c]) s

theorem walk_append : ∀ (s t : List Char) (a : List (List Char)) (n : List Char),
    pathWalk a n (s ++ t) = pathWalk (readPath a n s).1 (readPath a n s).2 t
  | [], _, _, _ => rfl
  | c :: s, t, a, n => by
    rw [List.cons_append, pathWalk, readPath]
    split
    · exact walk_append s t _ _
    · exact walk_append s t _ _

theorem walk_eq (a : List (List Char)) (n s : List Char) :
    pathWalk a n s = pathStep (readPath a n s).1 (readPath a n s).2 := by
  have := walk_append s [] a n
  rwa [List.append_nil] at this

theorem splitOn_ne_nil (c : Char) (s : List Char) : splitOn c s ≠ [] := by
  cases s with
  | nil => simp [splitOn]
  | cons x s =>
    rw [splitOn]
    split
    · simp
    · split <;> simp

/-- Reading a path is going through its components. -/
theorem walk_split : ∀ (s : List Char) (a : List (List Char)) (n h : List Char)
    (t : List (List Char)), splitOn '/' s = h :: t →
    pathWalk a n s = (((n ++ h) :: t).foldl pathStep a)
  | [], a, n, h, t, hs => by
    simp only [splitOn, List.cons.injEq] at hs
    obtain ⟨rfl, rfl⟩ := hs
    simp [pathWalk]
  | c :: s, a, n, h, t, hs => by
    rw [splitOn] at hs
    rw [pathWalk]
    split at hs
    · next hc =>
      rw [if_pos hc]
      simp only [List.cons.injEq] at hs
      obtain ⟨rfl, rfl⟩ := hs
      obtain ⟨h', t', ht⟩ := List.exists_cons_of_ne_nil (splitOn_ne_nil '/' s)
      rw [walk_split s _ [] h' t' ht, ht]
      simp
    · next hc =>
      rw [if_neg hc]
      obtain ⟨h', t', ht⟩ := List.exists_cons_of_ne_nil (splitOn_ne_nil '/' s)
      rw [ht] at hs
      simp only [List.cons.injEq] at hs
      obtain ⟨rfl, rfl⟩ := hs
      rw [walk_split s a (n ++ [c]) h' t' ht]
      simp

theorem place_split (s : List Char) : place s = (splitOn '/' s).foldl pathStep [] := by
  obtain ⟨h, t, ht⟩ := List.exists_cons_of_ne_nil (splitOn_ne_nil '/' s)
  rw [place, walk_split s [] [] h t ht, ht]
  rfl

/-- A component of a normalised absolute path. -/
def Name (c : List Char) : Prop := c ≠ [] ∧ c ≠ ['.'] ∧ c ≠ ['.', '.'] ∧ '/' ∉ c

theorem step_name {c : List Char} (h : Name c) (a : List (List Char)) :
    pathStep a c = a ++ [c] := by
  simp [pathStep, h.1, h.2.1, h.2.2.1]

theorem split_free : ∀ (s : List Char), ∀ c ∈ splitOn '/' s, '/' ∉ c
  | [] => by simp [splitOn]
  | x :: s => by
    intro c hc
    rw [splitOn] at hc
    split at hc
    · rcases List.mem_cons.mp hc with rfl | hc
      · simp
      · exact split_free s c hc
    · next hx =>
      obtain ⟨h', t', ht⟩ := List.exists_cons_of_ne_nil (splitOn_ne_nil '/' s)
      have ih := split_free s
      rw [ht] at hc ih
      rcases List.mem_cons.mp hc with rfl | hc
      · simp only [List.mem_cons, not_or]
        exact ⟨Ne.symm hx, ih h' (by simp)⟩
      · exact ih c (by simp [hc])

/-- The loop of `normpath` on an absolute path goes where the path leads. -/
theorem normLoop_walk : ∀ (cs acc : List (List Char)), (∀ c ∈ cs, '/' ∉ c) → (∀ c ∈ acc, Name c) →
    normLoop true acc cs = cs.foldl pathStep acc ∧ ∀ c ∈ normLoop true acc cs, Name c
  | [], acc, _, h => ⟨rfl, h⟩
  | c :: cs, acc, hc, h => by
    rw [normLoop, List.foldl_cons, pathStep]
    split
    · exact normLoop_walk cs acc (fun d hd => hc d (by simp [hd])) h
    · next h1 =>
      have hlast : acc.getLast? ≠ some ['.', '.'] := by
        intro he
        exact (h _ (List.mem_of_getLast? he)).2.2.1 rfl
      by_cases h2 : c = ['.', '.']
      · rw [if_neg (by simp [h2, hlast]), if_pos h2]
        exact normLoop_walk cs _ (fun d hd => hc d (by simp [hd]))
          (fun d hd => h d (List.dropLast_subset _ hd))
      · rw [if_pos (.inl h2), if_neg h2]
        refine normLoop_walk cs _ (fun d hd => hc d (by simp [hd])) fun d hd => ?_
        rcases List.mem_append.mp hd with hd | hd
        · exact h d hd
        · rw [List.mem_singleton] at hd
          subst hd
          exact ⟨fun e => h1 (.inl e), fun e => h1 (.inr e), h2, hc d (by simp)⟩

theorem split_append {n s h : List Char} {t : List (List Char)} (hn : '/' ∉ n)
    (hs : splitOn '/' s = h :: t) : splitOn '/' (n ++ s) = (n ++ h) :: t := by
  induction n with
  | nil => exact hs
  | cons x n ih =>
    simp only [List.mem_cons, not_or] at hn
    rw [List.cons_append, splitOn, if_neg (Ne.symm hn.1), ih hn.2]
    rfl

theorem split_join : ∀ (cs : List (List Char)), cs ≠ [] → (∀ c ∈ cs, '/' ∉ c) →
    splitOn '/' (joinSlash cs) = cs
  | [], h, _ => absurd rfl h
  | [c], _, h => by
    have := split_append (s := []) (h := []) (t := []) (h c (by simp)) rfl
    simpa [joinSlash] using this
  | c :: d :: cs, _, h => by
    rw [joinSlash]
    · have ih := split_join (d :: cs) (by simp) (fun e he => h e (by simp [he]))
      have : splitOn '/' ('/' :: joinSlash (d :: cs)) = [] :: d :: cs := by
        rw [splitOn, if_pos rfl, ih]
      rw [split_append (h c (by simp)) this, List.append_nil]
    · simp

theorem foldl_names : ∀ (cs a : List (List Char)), (∀ c ∈ cs, Name c) →
    cs.foldl pathStep a = a ++ cs
  | [], a, _ => by simp
  | c :: cs, a, h => by
    rw [List.foldl_cons, step_name (h c (by simp)), foldl_names cs _ (fun d hd => h d (by simp [hd]))]
    simp

/-- A normalised absolute path. -/
inductive Normal : List (List Char) → List Char → Prop
  | one {cs} (h : ∀ c ∈ cs, Name c) : Normal cs ('/' :: joinSlash cs)
  | two {cs} (h : ∀ c ∈ cs, Name c) : Normal cs ('/' :: '/' :: joinSlash cs)

theorem Normal.names {cs : List (List Char)} {p : List Char} (h : Normal cs p) :
    ∀ c ∈ cs, Name c := by cases h <;> assumption

theorem join_nil_or {cs : List (List Char)} (h : ∀ c ∈ cs, Name c) (a : List (List Char)) :
    (splitOn '/' (joinSlash cs)).foldl pathStep a = a ++ cs ∧
    ∀ c ∈ splitOn '/' (joinSlash cs), c = [] ∨ Name c := by
  by_cases hc : cs = []
  · subst hc
    simp [joinSlash, splitOn, pathStep]
  · rw [split_join cs hc (fun c hc => (h c hc).2.2.2)]
    exact ⟨foldl_names cs a h, fun c hc => .inr (h c hc)⟩

theorem Normal.split {cs : List (List Char)} {p : List Char} (h : Normal cs p) :
    (splitOn '/' p).foldl pathStep [] = cs ∧ ∀ c ∈ splitOn '/' p, c = [] ∨ Name c := by
  cases h with
  | one h =>
    obtain ⟨h1, h2⟩ := join_nil_or h []
    rw [splitOn, if_pos rfl]
    refine ⟨?_, fun c hc => ?_⟩
    · rw [List.foldl_cons, show pathStep [] [] = [] from by simp [pathStep], h1]; simp
    · rcases List.mem_cons.mp hc with hc | hc
      · exact .inl hc
      · exact h2 c hc
  | two h =>
    obtain ⟨h1, h2⟩ := join_nil_or h []
    rw [splitOn, if_pos rfl, splitOn, if_pos rfl]
    refine ⟨?_, fun c hc => ?_⟩
    · rw [List.foldl_cons, show pathStep [] [] = [] from by simp [pathStep], List.foldl_cons,
        show pathStep [] [] = [] from by simp [pathStep], h1]; simp
    · simp only [List.mem_cons] at hc
      rcases hc with hc | hc | hc
      · exact .inl hc
      · exact .inl hc
      · exact h2 c hc

theorem Normal.place {cs : List (List Char)} {p : List Char} (h : Normal cs p) :
    place p = cs := by rw [place_split]; exact h.split.1

theorem slashes_cases {p : List Char} (h : p.head? = some '/') :
    initialSlashes p = ['/'] ∨ initialSlashes p = ['/', '/'] := by
  cases p with
  | nil => simp at h
  | cons c p =>
    simp only [List.head?_cons, Option.some.injEq] at h
    subst h
    unfold initialSlashes
    split <;> simp_all

/-- `normpath` of an absolute path is normalised and names the same place. -/
theorem normpath_absolute {p : List Char} (h : p.head? = some '/') :
    Normal (place p) (normpath p) := by
  have hp : p ≠ [] := by rintro rfl; simp at h
  obtain ⟨h1, h2⟩ := normLoop_walk (splitOn '/' p) [] (split_free p) (by simp)
  rw [← place_split] at h1
  unfold normpath
  simp only [if_neg hp]
  rcases slashes_cases h with hs | hs
  · rw [hs, show decide (['/'] ≠ ([] : List Char)) = true from rfl, h1, if_neg (by simp)]
    exact .one (fun c hc => h2 c (by rw [h1]; exact hc))
  · rw [hs, show decide (['/', '/'] ≠ ([] : List Char)) = true from rfl, h1, if_neg (by simp)]
    exact .two (fun c hc => h2 c (by rw [h1]; exact hc))

/-! ## The claim -/

theorem join_absolute {db t : List Char} (h : db.head? = some '/') :
    (pathJoin db t).head? = some '/' := by
  unfold pathJoin
  split
  · assumption
  · split
    · cases db <;> simp_all
    · cases db <;> simp_all

theorem step_grows {a : List (List Char)} {c : List Char} (h : c ≠ ['.', '.']) :
    a <+: pathStep a c := by
  unfold pathStep
  split_ifs
  · exact List.prefix_rfl
  · exact List.prefix_append _ _

theorem foldl_grows : ∀ (cs a : List (List Char)), ['.', '.'] ∉ cs → a <+: cs.foldl pathStep a
  | [], _, _ => List.prefix_rfl
  | c :: cs, a, h => by
    simp only [List.mem_cons, not_or] at h
    exact (step_grows (Ne.symm h.1)).trans (foldl_grows cs _ h.2)

/-- What is read so far when the path is split there. -/
theorem read_split : ∀ (s t : List Char) (a : List (List Char)) (n : List Char),
    ∃ h cs cs', splitOn '/' t = h :: cs ∧
      splitOn '/' (n ++ s ++ t) ≠ [] ∧
      ('/' ∉ n → ((readPath a n s).2 ++ h) ∈ splitOn '/' (n ++ s ++ t) ∧
        splitOn '/' (n ++ s ++ t) = cs' ++ ((readPath a n s).2 ++ h) :: cs)
  | [], t, a, n => by
    obtain ⟨h, cs, ht⟩ := List.exists_cons_of_ne_nil (splitOn_ne_nil '/' t)
    refine ⟨h, cs, [], ht, splitOn_ne_nil _ _, fun hn => ?_⟩
    rw [List.append_nil, split_append hn ht, readPath]
    simp
  | c :: s, t, a, n => by
    rw [readPath]
    split
    · next hc =>
      subst hc
      obtain ⟨h, cs, cs', h1, _, h3⟩ := read_split s t (pathStep a n) []
      refine ⟨h, cs, n :: cs', h1, splitOn_ne_nil _ _, fun hn => ?_⟩
      have h4 := h3 (by simp)
      rw [List.nil_append] at h4
      have h5 : splitOn '/' ('/' :: (s ++ t)) = [] :: splitOn '/' (s ++ t) := by
        rw [splitOn, if_pos rfl]
      have h6 : splitOn '/' (n ++ '/' :: s ++ t) = n :: splitOn '/' (s ++ t) := by
        rw [List.append_assoc, List.cons_append, split_append hn h5, List.append_nil]
      rw [h6]
      exact ⟨by simp [h4.1], by rw [h4.2]; simp⟩
    · next hc =>
      obtain ⟨h, cs, cs', h1, _, h3⟩ := read_split s t a (n ++ [c])
      refine ⟨h, cs, cs', h1, splitOn_ne_nil _ _, fun hn => ?_⟩
      have h4 := h3 (by simp [hn, Ne.symm hc])
      rw [show n ++ c :: s ++ t = n ++ [c] ++ s ++ t by simp]
      exact h4

theorem read_slash : ∀ (a : List (List Char)) (n s : List Char), s.getLast? = some '/' →
    (readPath a n s).2 = []
  | _, _, [], h => by simp at h
  | a, n, [c], h => by
    simp only [List.getLast?_singleton, Option.some.injEq] at h
    subst h
    simp [readPath]
  | a, n, c :: d :: s, h => by
    rw [List.getLast?_cons_cons] at h
    rw [readPath]
    split
    · exact read_slash _ _ _ h
    · exact read_slash _ _ _ h

theorem split_last {t : List Char} (ht : '/' ∉ t) : ∀ (s : List Char),
    ∃ l x, splitOn '/' s = l ++ [x] ∧ splitOn '/' (s ++ t) = l ++ [x ++ t]
  | [] => ⟨[], [], rfl, by
      have := split_append (s := []) (h := []) (t := []) ht rfl
      simpa using this⟩
  | c :: s => by
    obtain ⟨l, x, h1, h2⟩ := split_last ht s
    rw [List.cons_append, splitOn, splitOn]
    split
    · exact ⟨[] :: l, x, by simp [h1], by simp [h2]⟩
    · rw [h1, h2]
      cases l with
      | nil => exact ⟨[], c :: x, rfl, rfl⟩
      | cons y l => exact ⟨(c :: y) :: l, x, rfl, rfl⟩

theorem split_ics (s : List Char) (h : ['.', '.'] ∉ splitOn '/' s) :
    ['.', '.'] ∉ splitOn '/' (s ++ ".ics".toList) := by
  obtain ⟨l, x, h1, h2⟩ := split_last (t := ".ics".toList) (by decide) s
  rw [h1] at h
  rw [h2]
  simp only [List.mem_append, List.mem_singleton, not_or] at h ⊢
  refine ⟨h.1, fun he => ?_⟩
  have := congrArg List.length he
  simp at this

/-- A path that begins with `db` leads to a place inside `db`, or to (a place inside) a neighbour
of `db` whose name begins with the name of `db`. -/
theorem prefix_inside {cs : List (List Char)} {db q : List Char} (h : Normal cs (db ++ q)) :
    Inside db (db ++ q) ∨ db.getLast? ≠ some '/' ∧ ∃ parent name ext, ext ≠ [] ∧
      place db = parent ++ [name] ∧ parent ++ [name ++ ext] <+: place (db ++ q) := by
  obtain ⟨hsplit, hgood⟩ := h.split
  obtain ⟨hd, tl, pre, h1, _, h3⟩ := read_split db q [] []
  obtain ⟨hmem, heq⟩ := h3 (by simp)
  rw [List.nil_append] at hmem heq
  have hplace : place (db ++ q) = (((readPath [] [] db).2 ++ hd) :: tl).foldl pathStep
      (readPath [] [] db).1 := by
    rw [place, walk_append, walk_split q _ _ hd tl h1]
  have hdb : place db = pathStep (readPath [] [] db).1 (readPath [] [] db).2 := walk_eq _ _ _
  have hlast := read_slash [] [] db
  revert hmem heq hplace hdb hlast
  generalize (readPath [] [] db).1 = A
  generalize (readPath [] [] db).2 = n
  intro hmem heq hplace hdb hlast
  have htl : ['.', '.'] ∉ tl := by
    intro hm
    rcases hgood ['.', '.'] (by rw [heq]; simp [hm]) with h | h
    · simp at h
    · exact h.2.2.1 rfl
  rw [List.foldl_cons] at hplace
  have hpre := foldl_grows tl (pathStep A (n ++ hd)) htl
  rw [← hplace] at hpre
  have hgrow : A <+: place (db ++ q) := by
    refine (step_grows ?_).trans hpre
    rcases hgood _ hmem with h | h
    · rw [h]; simp
    · exact h.2.2.1
  unfold Inside
  rw [hdb]
  unfold pathStep
  split_ifs with c1 c2
  · exact .inl hgrow
  · exact .inl ((List.dropLast_prefix A).trans hgrow)
  · have hname : Name (n ++ hd) := by
      rcases hgood _ hmem with h | h
      · exact absurd (.inl (List.append_eq_nil_iff.mp h).1) c1
      · exact h
    rw [step_name hname] at hpre
    by_cases he : hd = []
    · rw [he, List.append_nil] at hpre
      exact .inl hpre
    · exact .inr ⟨fun hl => c1 (.inl (hlast hl)), A, n, hd, he, rfl, hpre⟩

/-- C38 (partial): if the database path is absolute and ends with a slash, the file looked for is
inside the database directory, whatever the TZID.  Missing: paths without the slash
(`C38_fails_sibling`) and relative paths (`C38_fails_relative`). -/
theorem C38_slash_partial (db tzid p : List Char) (ha : db.head? = some '/')
    (hs : db.getLast? = some '/') (h : tzPath db tzid = some p) : Inside db p := by
  unfold tzPath at h
  simp only at h
  split at h
  · next hp =>
    simp only [Option.some.injEq] at h
    subst h
    obtain ⟨q, hq⟩ := List.isPrefixOf_iff_prefix.mp hp
    have hn := normpath_absolute (join_absolute (t := tzid ++ ".ics".toList) ha)
    rw [← hq] at hn ⊢
    rcases prefix_inside hn with h | ⟨h, _⟩
    · exact h
    · exact absurd hs h
  · simp at h

/-- C38 (partial): if the database path is absolute, the file looked for is inside the database
directory or inside a neighbour of that directory whose name begins with the same letters.

Missing: the neighbours, `C38_fails_sibling`, and relative paths, `C38_fails_relative`. -/
theorem C38_sibling_partial (db tzid p : List Char) (ha : db.head? = some '/')
    (h : tzPath db tzid = some p) :
    Inside db p ∨ ∃ parent name ext, ext ≠ [] ∧ place db = parent ++ [name] ∧
      parent ++ [name ++ ext] <+: place p := by
  unfold tzPath at h
  simp only at h
  split at h
  · next hp =>
    simp only [Option.some.injEq] at h
    subst h
    obtain ⟨q, hq⟩ := List.isPrefixOf_iff_prefix.mp hp
    have hn := normpath_absolute (join_absolute (t := tzid ++ ".ics".toList) ha)
    rw [← hq] at hn ⊢
    rcases prefix_inside hn with h | ⟨_, h⟩
    · exact .inl h
    · exact .inr h
  · simp at h

/-- C38 (partial): for an absolute database path and a TZID that does not begin with a slash and has
no component `..`, the file looked for is inside the database directory.

Missing: other TZIDs, `C38_fails_sibling` and `C38_fails_dots`. -/
theorem C38_plain_partial (db tzid p : List Char) (ha : db.head? = some '/')
    (hr : tzid.head? ≠ some '/') (hd : ['.', '.'] ∉ splitOn '/' tzid)
    (h : tzPath db tzid = some p) : Inside db p := by
  unfold tzPath at h
  simp only at h
  split at h
  · simp only [Option.some.injEq] at h
    subst h
    have hn := normpath_absolute (join_absolute (t := tzid ++ ".ics".toList) ha)
    unfold Inside
    rw [hn.place]
    have hd' : ['.', '.'] ∉ splitOn '/' (tzid ++ ".ics".toList) := split_ics tzid hd
    have hh : (tzid ++ ".ics".toList).head? ≠ some '/' := by
      cases tzid with
      | nil => decide
      | cons c t => simpa using hr
    unfold pathJoin
    rw [if_neg hh]
    split
    · next hl =>
      have hl : db.getLast? = some '/' := by
        rcases hl with rfl | hl
        · simp at ha
        · exact hl
      rw [place, place, walk_append, walk_eq, read_slash [] [] db hl]
      obtain ⟨x, t, ht⟩ := List.exists_cons_of_ne_nil (splitOn_ne_nil '/' (tzid ++ ".ics".toList))
      rw [walk_split _ _ _ x t ht, show pathStep (readPath [] [] db).1 [] = (readPath [] [] db).1
        from by simp [pathStep]]
      rw [ht] at hd'
      exact foldl_grows (x :: t) _ hd'
    · rw [place, place, walk_append, walk_eq, pathWalk, if_pos rfl]
      obtain ⟨x, t, ht⟩ := List.exists_cons_of_ne_nil (splitOn_ne_nil '/' (tzid ++ ".ics".toList))
      rw [walk_split _ _ _ x t ht]
      rw [ht] at hd'
      exact foldl_grows (x :: t) _ hd'
  · simp at h

/-! ## Files that are found, and where the claim fails -/

theorem join_cons (c : List Char) {z : List (List Char)} (hz : z ≠ []) :
    joinSlash (c :: z) = c ++ '/' :: joinSlash z := by
  rw [joinSlash]
  exact hz

theorem join_snoc (x t : List Char) : ∀ (l : List (List Char)),
    joinSlash (l ++ [x]) ++ t = joinSlash (l ++ [x ++ t])
  | [] => by simp [joinSlash]
  | c :: l => by
    rw [List.cons_append, List.cons_append, join_cons c (by simp), join_cons c (by simp),
      List.append_assoc, List.cons_append, join_snoc x t l]

theorem join_append {ds : List (List Char)} (hd : ds ≠ []) : ∀ {cs : List (List Char)}, cs ≠ [] →
    joinSlash (cs ++ ds) = joinSlash cs ++ '/' :: joinSlash ds
  | [], h => absurd rfl h
  | [c], _ => by
    rw [List.singleton_append, join_cons c hd]
    rfl
  | c :: d :: cs, _ => by
    have ih := join_append hd (cs := d :: cs) (by simp)
    rw [List.cons_append, join_cons c (by simp), ih, join_cons c (by simp)]
    simp

theorem join_head {cs : List (List Char)} (h : ∀ c ∈ cs, Name c) :
    (joinSlash cs).head? ≠ some '/' := by
  match cs with
  | [] => simp [joinSlash]
  | [c] =>
    obtain ⟨h1, _, _, h4⟩ := h c (by simp)
    cases c with
    | nil => simp at h1
    | cons x c =>
      simp only [List.mem_cons, not_or] at h4
      simpa [joinSlash] using Ne.symm h4.1
  | c :: d :: cs =>
    obtain ⟨h1, _, _, h4⟩ := h c (by simp)
    rw [joinSlash]
    · cases c with
      | nil => simp at h1
      | cons x c =>
        simp only [List.mem_cons, not_or] at h4
        simpa using Ne.symm h4.1
    · simp

theorem normpath_normal {cs : List (List Char)} {p : List Char} (h : Normal cs p) :
    normpath p = p := by
  have hn : normLoop true [] (splitOn '/' p) = cs := by
    rw [(normLoop_walk _ _ (split_free p) (by simp)).1]
    exact h.split.1
  have hh := join_head h.names
  unfold normpath
  cases h with
  | one h =>
    have : initialSlashes ('/' :: joinSlash cs) = ['/'] := by
      cases hj : joinSlash cs with
      | nil => rfl
      | cons c t =>
        rw [hj] at hh
        have hc : c ≠ '/' := by simpa using hh
        unfold initialSlashes
        split <;> simp_all
    simp only [this]
    rw [show decide (['/'] ≠ ([] : List Char)) = true from rfl, hn]
    simp
  | two h =>
    have : initialSlashes ('/' :: '/' :: joinSlash cs) = ['/', '/'] := by
      cases hj : joinSlash cs with
      | nil => rfl
      | cons c t =>
        rw [hj] at hh
        have hc : c ≠ '/' := by simpa using hh
        rw [initialSlashes]
        intro t' ht
        simp only [List.cons.injEq] at ht
        exact hc ht.1
    simp only [this]
    rw [show decide (['/', '/'] ≠ ([] : List Char)) = true from rfl, hn]
    simp

theorem Normal.append {cs ds : List (List Char)} {p : List Char} (h : Normal cs p) (hc : cs ≠ [])
    (hne : ds ≠ []) (hd : ∀ c ∈ ds, Name c) : Normal (cs ++ ds) (p ++ '/' :: joinSlash ds) := by
  have hall : ∀ c ∈ cs ++ ds, Name c := by
    intro c hm
    rcases List.mem_append.mp hm with hm | hm
    · exact h.names c hm
    · exact hd c hm
  cases h with
  | one h =>
    rw [List.cons_append, ← join_append hne hc]
    exact .one hall
  | two h =>
    rw [List.cons_append, List.cons_append, ← join_append hne hc]
    exact .two hall

/-- The files of the database are found: for a normalised absolute database path (not the root) and
a TZID made of ordinary names, the file is the one with that name in the database directory. -/
theorem C38_found (cs ds : List (List Char)) (db x : List Char) (h : Normal cs db) (hc : cs ≠ [])
    (hds : ∀ c ∈ ds, Name c) (hx : '/' ∉ x) :
    tzPath db (joinSlash (ds ++ [x])) =
      some (db ++ '/' :: joinSlash (ds ++ [x ++ ".ics".toList])) := by
  have hd : ∀ c ∈ ds ++ [x ++ ".ics".toList], Name c := by
    intro c hm
    rcases List.mem_append.mp hm with hm | hm
    · exact hds c hm
    · rw [List.mem_singleton] at hm
      subst hm
      refine ⟨by simp, fun he => ?_, fun he => ?_, ?_⟩
      · have := congrArg List.length he; simp at this
      · have := congrArg List.length he; simp at this
      · rw [List.mem_append, not_or]
        exact ⟨hx, by decide⟩
  have hn := h.append hc (by simp) hd
  unfold tzPath
  rw [join_snoc]
  have hj : pathJoin db (joinSlash (ds ++ [x ++ ".ics".toList])) =
      db ++ '/' :: joinSlash (ds ++ [x ++ ".ics".toList]) := by
    unfold pathJoin
    rw [if_neg (join_head hd), if_neg]
    rw [not_or]
    constructor
    · cases h <;> simp
    · obtain ⟨l, c, rfl⟩ : ∃ l c, cs = l ++ [c] := ⟨_, _, (List.dropLast_append_getLast hc).symm⟩
      have hcn := h.names c (by simp)
      have hl : ∀ t : List Char, (t ++ joinSlash (l ++ [c])).getLast? ≠ some '/' := by
        intro t he
        have he' : joinSlash (l ++ [c]) = joinSlash (l ++ [[]]) ++ c := by
          rw [join_snoc, List.nil_append]
        rw [he', ← List.append_assoc, List.getLast?_append_of_ne_nil _ hcn.1] at he
        exact hcn.2.2.2 (List.mem_of_getLast? he)
      cases h with
      | one h => exact hl ['/']
      | two h => exact hl ['/', '/']
  simp only [hj, normpath_normal hn]
  rw [if_pos]
  rw [List.isPrefixOf_iff_prefix]
  exact List.prefix_append _ _

example : tzPath "/db".toList "US/Eastern".toList = some "/db/US/Eastern.ics".toList := by decide

/-- C38 fails for every normalised absolute database path other than the root: there is a TZID for
which the file looked for is outside the database directory.  (The TZID begins with a slash; one
with `..` does as well, see `C38_fails_dots`.) -/
theorem C38_fails_sibling (cs : List (List Char)) (db : List Char) (h : Normal cs db)
    (hc : cs ≠ []) : ∃ tzid p, tzPath db tzid = some p ∧ ¬ Inside db p := by
  obtain ⟨l, c, rfl⟩ : ∃ l c, cs = l ++ [c] := ⟨_, _, (List.dropLast_append_getLast hc).symm⟩
  have hcn := h.names c (by simp)
  have hname : Name (c ++ ['2']) := by
    refine ⟨by simp, fun he => ?_, fun he => ?_, by simp [hcn.2.2.2]⟩
    · have := congrArg List.getLast? he; simp at this
    · have := congrArg List.getLast? he; simp at this
  have h2 : Normal (l ++ [c ++ ['2']]) (db ++ ['2']) := by
    have hall : ∀ d ∈ l ++ [c ++ ['2']], Name d := by
      intro d hd
      rcases List.mem_append.mp hd with hd | hd
      · exact h.names d (by simp [hd])
      · rw [List.mem_singleton] at hd; rw [hd]; exact hname
    cases h with
    | one h => rw [List.cons_append, join_snoc]; exact .one hall
    | two h => rw [List.cons_append, List.cons_append, join_snoc]; exact .two hall
  have h3 := h2.append (ds := ["x.ics".toList]) (by simp) (by simp) (by
    intro d hd; rw [List.mem_singleton] at hd; subst hd; exact ⟨by decide, by decide, by decide, by decide⟩)
  refine ⟨db ++ "2/x".toList, db ++ "2/x.ics".toList, ?_, ?_⟩
  · have hj : pathJoin db (db ++ "2/x".toList ++ ".ics".toList) = db ++ "2/x.ics".toList := by
      unfold pathJoin
      rw [if_pos, List.append_assoc]
      · rfl
      · cases h <;> simp
    unfold tzPath
    simp only [hj]
    rw [show db ++ "2/x.ics".toList = db ++ ['2'] ++ '/' :: joinSlash ["x.ics".toList] by
      simp [joinSlash], normpath_normal h3, if_pos]
    rw [List.isPrefixOf_iff_prefix, List.append_assoc]
    exact List.prefix_append _ _
  · unfold Inside
    rw [show db ++ "2/x.ics".toList = db ++ ['2'] ++ '/' :: joinSlash ["x.ics".toList] by
      simp [joinSlash], h3.place, h.place, List.append_assoc, List.prefix_append_right_inj]
    rintro ⟨t, ht⟩
    simp only [List.cons_append, List.cons.injEq] at ht
    have := congrArg List.length ht.1
    simp at this

/-- The same with `..`. -/
theorem C38_fails_dots : tzPath "/usr/share/zoneinfo".toList "../zoneinfo-private/x".toList =
    some "/usr/share/zoneinfo-private/x.ics".toList ∧
    place "/usr/share/zoneinfo".toList = ["usr".toList, "share".toList, "zoneinfo".toList] ∧
    place "/usr/share/zoneinfo-private/x.ics".toList =
      ["usr".toList, "share".toList, "zoneinfo-private".toList, "x.ics".toList] := by decide

/-- C38 fails for relative database paths: with `..`, the file looked for can be further up; with
the empty path (the current directory) it can be anywhere. -/
theorem C38_fails_relative : tzPath "..".toList "../../etc/x".toList =
      some "../../../etc/x.ics".toList ∧
    tzPath "".toList "/etc/x".toList = some "/etc/x.ics".toList := by decide

/-- The conditions of the theorems are met by usual paths. -/
example : "/db/".toList.head? = some '/' ∧ "/db/".toList.getLast? = some '/' ∧
    tzPath "/db/".toList "US/Eastern".toList = some "/db/US/Eastern.ics".toList ∧
    ['.', '.'] ∉ splitOn '/' "US/Eastern".toList ∧
    tzPath "/db/".toList "../db2/x".toList = none ∧
    tzPath "/db/".toList "../../etc/passwd".toList = none := by decide

end PyCal
