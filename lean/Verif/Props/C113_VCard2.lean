import Verif.Props.C46_Lines

/-!
# C113: parameters without values, as in vCard 2
-/

namespace PyCal
open PropText Spec Line46

namespace V113

/-- The text of a property with parameters without values, as vCard 2 has it. -/
def line2 (name : List Char) (ns : List (List Char)) (value : List Char) : List Char :=
  name ++ (ns.flatMap fun n => ';' :: n) ++ ':' :: value

/-- Whether one of the parameters says that the value is in base 64. -/
def Base64 (ns : List (List Char)) : Prop := ∃ n ∈ ns, upper n = "BASE64".toList

instance (ns : List (List Char)) : Decidable (Base64 ns) := by unfold Base64; infer_instance

/-- The parameter that vCard 3 has instead. -/
def param3 (n : List Char) : Param :=
  if upper n = "BASE64".toList then ⟨"ENCODING".toList, [['b']]⟩ else ⟨n, []⟩

theorem next (ns : List (List Char)) (value : List Char) :
    ∃ d ∈ [';', ':'], ∃ r, (ns.flatMap fun n => ';' :: n) ++ ':' :: value = d :: r := by
  cases ns with
  | nil => exact ⟨':', by simp, value, rfl⟩
  | cons n ns => exact ⟨';', by simp, _, by simp only [List.flatMap_cons, List.cons_append]; rfl⟩

theorem param {cfg : Config} (ha : cfg.noValues = .allow) {n : List Char} (hn : Token n) {d : Char} (hd : d ∈ [';', ':'])
    (r : List Char) :
    parseParam true cfg (n ++ d :: r) =
      if upper n = "BASE64".toList ∧ cfg.base64 = .fix then some (("ENCODING".toList, some ['b']), d :: r, true)
      else some ((n, none), d :: r, false) := by
  have h1 : d ∈ ['=', ':', ';'] := by simp at hd ⊢; tauto
  have h2 : d ≠ '=' := by simp at hd; rcases hd with rfl | rfl <;> decide
  simp only [parseParam, if_true, token_dup hn h1 (fun c h => h), ha]
  split
  · simp_all
  · simp_all
  · rfl

theorem noMore {d : Char} (hd : d ∈ [';', ':']) (r : List Char) : parseValues (d :: r) = some ([], d :: r) := by
  rw [parseValues]
  have : d ≠ ',' := by simp at hd; rcases hd with rfl | rfl <;> decide
  simp [this]

theorem params (ns : List (List Char)) (hn : ∀ n ∈ ns, Token n) (value : List Char) : ∀ strip,
    parseParams true {} strip ((ns.flatMap fun n => ';' :: n) ++ ':' :: value) =
      .ok (ns.map param3, some (if strip = true ∨ Base64 ns then value.filter (· ≠ ' ') else value)) := by
  induction ns with
  | nil =>
    intro strip
    simp only [List.flatMap_nil, List.nil_append]
    rw [parseParams]
    simp [Base64]
  | cons n ns ih =>
    intro strip
    obtain ⟨d, hd, r, hr⟩ := next ns value
    simp only [List.flatMap_cons, List.cons_append, List.append_assoc]
    rw [parseParams]
    simp only [if_true]
    have hp := param (cfg := {}) rfl (hn n (by simp)) hd r
    rw [hr]
    have ih' := ih fun m hm => hn m (List.mem_cons_of_mem _ hm)
    rw [hr] at ih'
    by_cases hb : upper n = "BASE64".toList
    · rw [if_pos ⟨hb, rfl⟩] at hp
      split
      · simp_all
      · next he =>
        rw [hp] at he
        cases he
        split
        · next hv => rw [noMore hd] at hv; cases hv
        · next hv =>
          rw [noMore hd] at hv
          cases hv
          rw [ih']
          simp [param3, hb, Base64]
    · rw [if_neg (fun h => hb h.1)] at hp
      split
      · simp_all
      · next he =>
        rw [hp] at he
        cases he
        split
        · next hv => rw [noMore hd] at hv; cases hv
        · next hv =>
          rw [noMore hd] at hv
          cases hv
          rw [ih']
          have hq : Base64 (n :: ns) ↔ Base64 ns := by
            unfold Base64
            simp only [List.mem_cons, exists_eq_or_imp, hb, false_or]
          simp only [Bool.or_false, Option.toList_none, List.append_nil, List.map_cons, param3, if_neg hb, hq]

theorem refuse {cfg : Config} {t : List Char} (hp : parseParam true cfg t = none) (strip : Bool) :
    parseParams true cfg strip (';' :: t) = .invalid := by
  rw [parseParams]
  simp only [if_true]
  split
  · rfl
  · simp_all

end V113
open V113

/-- As the library is set up, a line with parameters without values is read: each is a parameter without values, in the same
order, but for BASE64, which is read as `ENCODING=b` and takes the spaces out of the value. -/
theorem C113_read (name : List Char) (hn : Token name) (ns : List (List Char)) (hns : ∀ n ∈ ns, Token n) (value : List Char) :
    parseText true {} (line2 name ns value) =
      .ok (none, name, ns.map param3, some (if Base64 ns then value.filter (· ≠ ' ') else value)) := by
  obtain ⟨d, hd, r, hr⟩ := next ns value
  have hdot : '.' ∉ name := fun hm => by simpa using hn.2 _ hm
  unfold line2 parseText
  rw [List.append_assoc, hr, token_dup hn hd (by simp), ← hr]
  simp only [if_neg hn.1, params ns hns value false, splitGroup, if_neg hdot, if_true]
  simp

/-- What is then written has the parameters without values again and `ENCODING=b`, and is read in the same way, spaces or
not. -/
theorem C113_written (name : List Char) (hn : Token name) (ns : List (List Char)) (hns : ∀ n ∈ ns, Token n)
    (value : List Char) :
    ∃ ps v, parseText true {} (line2 name ns value) = .ok (none, name, ps, some v) ∧
      ∃ ps', parseText true {} (generate ⟨none, name, ps, v⟩) = .ok (none, name, ps', some v) ∧ SameParams ps ps' := by
  refine ⟨_, _, C113_read name hn ns hns value, ?_⟩
  refine C46_roundtrip_partial true {} ⟨none, name, ns.map param3, _⟩ hn (.inl rfl) ?_
  intro p hp
  obtain ⟨n, hm, rfl⟩ := List.mem_map.1 hp
  unfold param3
  split_ifs with hb
  · refine ⟨by decide, by decide, by simp⟩
  · refine ⟨hns n hm, by simp, fun _ => ⟨rfl, rfl, hb⟩⟩

/-- The hypotheses can be met. -/
example : parseText true {} "PHOTO;BASE64;HOME: QU JD".toList =
    .ok (none, "PHOTO".toList, [⟨"ENCODING".toList, [['b']]⟩, ⟨"HOME".toList, []⟩], some "QUJD".toList) :=
  C113_read "PHOTO".toList (by decide) ["BASE64".toList, "HOME".toList] (by decide) " QU JD".toList

/-- If parameters without values shall raise, such a line does. -/
theorem C113_raise (cfg : Config) (hc : cfg.noValues = .raise) (name n : List Char) (hn : Token name) (hm : Token n)
    (d : Char) (hd : d ∈ [';', ':']) (r : List Char) : parseText true cfg (name ++ ';' :: n ++ d :: r) = .invalid := by
  have h1 : d ∈ ['=', ':', ';'] := by simp at hd ⊢; tauto
  have h2 : d ≠ '=' := by simp at hd; rcases hd with rfl | rfl <;> decide
  have hp : parseParam true cfg (n ++ d :: r) = none := by
    simp only [parseParam, if_true, token_dup hm h1 (fun c h => h), hc]
    split <;> simp_all
  unfold parseText
  rw [List.append_assoc, List.cons_append, token_dup hn (by simp) (by simp)]
  simp only [if_neg hn.1, refuse hp]

/-- C113 fails: if they shall be ignored or put right instead, such a line raises as well. -/
theorem C113_fails_ignore (cfg : Config) (hc : cfg.noValues = .ignore ∨ cfg.noValues = .fix) (name n : List Char)
    (hn : Token name) (hm : Token n) (d : Char) (hd : d ∈ [';', ':']) (r : List Char) :
    parseText true cfg (name ++ ';' :: n ++ d :: r) = .invalid := by
  have h1 : d ∈ ['=', ':', ';'] := by simp at hd ⊢; tauto
  have h2 : d ≠ '=' := by simp at hd; rcases hd with rfl | rfl <;> decide
  have h3 : cfg.noValues ≠ .allow := by rcases hc with h | h <;> rw [h] <;> decide
  have hp : parseParam true cfg (n ++ d :: r) = none := by
    simp only [parseParam, if_true, token_dup hm h1 (fun c h => h), h3]
    split <;> simp_all
  unfold parseText
  rw [List.append_assoc, List.cons_append, token_dup hn (by simp) (by simp)]
  simp only [if_neg hn.1, refuse hp]

/-- The hypotheses can be met: the beginning of `TEL;HOME:1`. -/
example : parseText true { noValues := .fix } "TEL;HOME:1".toList = .invalid :=
  C113_fails_ignore _ (.inr rfl) "TEL".toList "HOME".toList (by decide) (by decide) ':' (by decide) "1".toList

end PyCal
