import Verif.Component.IdsSpec

/-! # Property C34: component ids -/

namespace Verif.Component

theorem split_none {s : Str} : splitRelativeId s = none ↔ Plain s := by
  unfold Plain
  induction s with
  | nil => simp [splitRelativeId]
  | cons c s ih =>
    unfold splitRelativeId
    by_cases h : c = '/'
    · subst h; simp
    · rw [if_neg (by simpa using h), Option.map_eq_none_iff, ih]
      simp [Ne.symm h]

theorem split_some {s a r : Str} : splitRelativeId s = some (a, r) ↔ s = a ++ '/' :: r ∧ Plain a := by
  unfold Plain
  induction s generalizing a with
  | nil => simp [splitRelativeId]
  | cons c s ih =>
    unfold splitRelativeId
    by_cases h : c = '/'
    · subst h
      rw [if_pos (by simp)]
      constructor
      · intro e; cases e; simp
      · rintro ⟨e, hp⟩
        cases a with
        | nil => cases e; rfl
        | cons b a => exact absurd (by rw [← (List.cons.inj e).1]; simp) hp
    · rw [if_neg (by simpa using h)]
      constructor
      · intro e
        obtain ⟨⟨a', r'⟩, e1, e2⟩ := Option.map_eq_some_iff.mp e
        cases e2
        obtain ⟨rfl, hp⟩ := ih.mp e1
        exact ⟨rfl, by simp [Ne.symm h, hp]⟩
      · rintro ⟨e, hp⟩
        cases a with
        | nil => exact absurd (List.cons.inj e).1 h
        | cons b a =>
          obtain ⟨rfl, e2⟩ := List.cons.inj e
          rw [ih.mpr ⟨e2, fun hm => hp (by simp [hm])⟩]
          rfl

/-- A text is empty or starts with `/`. -/
def Cut (s : Str) : Prop := s = [] ∨ ∃ r, s = '/' :: r

theorem cut_absolute (p : List Str) : Cut (absolute p) := by
  cases p with
  | nil => exact .inl rfl
  | cons a p => exact .inr ⟨_, rfl⟩

theorem plain_cut {a b x y : Str} (ha : Plain a) (hb : Plain b) (hx : Cut x) (hy : Cut y) (h : a ++ x = b ++ y) :
    a = b ∧ x = y := by
  induction a generalizing b with
  | nil =>
    cases b with
    | nil => exact ⟨rfl, h⟩
    | cons c b =>
      rcases hx with rfl | ⟨r, rfl⟩
      · cases h
      · exact absurd (by rw [(List.cons.inj h).1]; simp) hb
  | cons c a ih =>
    cases b with
    | nil =>
      rcases hy with rfl | ⟨r, rfl⟩
      · cases h
      · exact absurd (by rw [← (List.cons.inj h).1]; simp) ha
    | cons d b =>
      obtain ⟨rfl, h2⟩ := List.cons.inj h
      obtain ⟨rfl, h3⟩ := ih (fun hm => ha (by simp [hm])) (fun hm => hb (by simp [hm])) h2
      exact ⟨rfl, h3⟩

theorem absolute_append (p q : List Str) : absolute (p ++ q) = absolute p ++ absolute q := by
  induction p with
  | nil => rfl
  | cons a p ih => simp [absolute, ih]

/-- Paths of plain local ids are determined by their global ids. -/
theorem absolute_inj {p q : List Str} (hp : ∀ a ∈ p, Plain a) (hq : ∀ a ∈ q, Plain a) (h : absolute p = absolute q) :
    p = q := by
  induction p generalizing q with
  | nil =>
    cases q with
    | nil => rfl
    | cons b q => cases h
  | cons a p ih =>
    cases q with
    | nil => cases h
    | cons b q =>
      obtain ⟨rfl, h2⟩ := plain_cut (hp a (by simp)) (hq b (by simp)) (cut_absolute p) (cut_absolute q)
        (List.cons.inj h).2
      rw [ih (fun x hx => hp x (by simp [hx])) (fun x hx => hq x (by simp [hx])) h2]

theorem absolute_prefix {p q : List Str} {r : Str} (hp : ∀ a ∈ p, Plain a) (hq : ∀ a ∈ q, Plain a)
    (h : absolute q = absolute p ++ '/' :: r) : ∃ extra, extra ≠ [] ∧ q = p ++ extra := by
  induction p generalizing q with
  | nil =>
    cases q with
    | nil => cases h
    | cons b q => exact ⟨b :: q, by simp, rfl⟩
  | cons a p ih =>
    cases q with
    | nil => cases h
    | cons b q =>
      have h2 : b ++ absolute q = a ++ (absolute p ++ '/' :: r) := by
        have := (List.cons.inj h).2
        exact this.trans (List.append_assoc _ _ _)
      have hc : Cut (absolute p ++ '/' :: r) := by
        rcases cut_absolute p with e | ⟨s, e⟩
        · rw [e]; exact .inr ⟨_, rfl⟩
        · rw [e]; exact .inr ⟨_, rfl⟩
      obtain ⟨rfl, h3⟩ := plain_cut (hq b (by simp)) (hp a (by simp)) (cut_absolute q) hc h2
      obtain ⟨extra, he, rfl⟩ := ih (fun x hx => hp x (by simp [hx])) (fun x hx => hq x (by simp [hx])) h3
      exact ⟨extra, he, rfl⟩

/-! ## C34 -/

/-- **C34.** Splitting fails exactly when there is no separator; otherwise it yields the text before the first
separator and the text after it, and joining them gives the id back. -/
theorem C34_split (s a r : Str) :
    (splitRelativeId s = none ↔ Plain s) ∧ (splitRelativeId s = some (a, r) ↔ s = a ++ '/' :: r ∧ Plain a) :=
  ⟨split_none, split_some⟩

example : splitRelativeId "a/b/c".toList = some ("a".toList, "b/c".toList) ∧ splitRelativeId "abc".toList = none ∧
    splitRelativeId "/a".toList = some ([], "a".toList) := by decide

/-- **C34.** Splitting the relative id of a path takes off its first local id. -/
theorem C34_splitPath (a b : Str) (p : List Str) (ha : Plain a) :
    splitRelativeId (relative (a :: b :: p)) = some (a, relative (b :: p)) ∧ (splitRelativeId (relative [a]) = none) :=
  ⟨split_some.mpr ⟨rfl, ha⟩, split_none.mpr ha⟩

example : Plain "dev".toList := by unfold Plain; decide
example : relative ["dev".toList, "io".toList, "ai".toList] = "dev/io/ai".toList := by decide

/-- **C34.** For any two texts, the nested test is true exactly when the second continues the first after a
separator. -/
theorem C34_nestedText (a d : Str) : isNestedComponentId a d = true ↔ ∃ rest, d = a ++ '/' :: rest := by
  unfold isNestedComponentId
  rw [List.isPrefixOf_iff_prefix]
  constructor
  · rintro ⟨t, rfl⟩; exact ⟨t, by simp⟩
  · rintro ⟨t, rfl⟩; exact ⟨t, by simp⟩

/-- **C34.** For global ids of components, the nested test is true exactly when the second path continues the first
by at least one local id. -/
theorem C34_nested (p q : List Str) (hp : ∀ a ∈ p, Plain a) (hq : ∀ a ∈ q, Plain a) :
    isNestedComponentId (absolute p) (absolute q) = true ↔ ∃ extra, extra ≠ [] ∧ q = p ++ extra := by
  rw [C34_nestedText]
  constructor
  · rintro ⟨r, h⟩; exact absolute_prefix hp hq h
  · rintro ⟨extra, he, rfl⟩
    cases extra with
    | nil => exact absurd rfl he
    | cons b extra => exact ⟨b ++ absolute extra, by rw [absolute_append]; rfl⟩

example : absolute ["dev".toList, "io".toList] = "/dev/io".toList ∧
    isNestedComponentId "/dev/io".toList "/dev/io/ai".toList = true ∧
    isNestedComponentId "/dev/io".toList "/dev/io2".toList = false ∧
    isNestedComponentId "/dev/io".toList "/dev/io".toList = false := by decide

/-- **C34.** The nested test is a strict order: transitive and irreflexive. -/
theorem C34_nestedOrder (a b c : Str) :
    (isNestedComponentId a b = true → isNestedComponentId b c = true → isNestedComponentId a c = true) ∧
    isNestedComponentId a a = false := by
  constructor
  · rw [C34_nestedText, C34_nestedText, C34_nestedText]
    rintro ⟨r, rfl⟩ ⟨r', rfl⟩
    exact ⟨r ++ '/' :: r', by simp⟩
  · cases h : isNestedComponentId a a with
    | false => rfl
    | true =>
      obtain ⟨r, e⟩ := (C34_nestedText a a).mp h
      have := congrArg List.length e
      simp at this

/-- **C34.** The ending test is true exactly when the first text ends with the second. -/
theorem C34_endsWith (s e : Str) : idEndsWith s e = true ↔ ∃ before, s = before ++ e := by
  unfold idEndsWith
  constructor
  · intro h
    split at h
    · cases h
    · simp only [beq_iff_eq] at h
      have := congrArg List.reverse h
      rw [List.reverse_reverse, List.reverse_take, List.reverse_reverse, List.length_reverse] at this
      refine ⟨s.take (s.length - e.length), ?_⟩
      conv => lhs; rw [← List.take_append_drop (s.length - e.length) s]
      rw [← this]
  · rintro ⟨b, rfl⟩
    rw [if_neg (by simp)]
    simp

theorem plain_skip {a b x y : Str} (ha : Plain a) (h : a ++ x = b ++ '/' :: y) : ∃ c, b = a ++ c ∧ x = c ++ '/' :: y := by
  induction a generalizing b with
  | nil => exact ⟨b, rfl, h⟩
  | cons d a ih =>
    cases b with
    | nil => exact absurd (by rw [← (List.cons.inj h).1]; simp) ha
    | cons e b =>
      obtain ⟨rfl, h2⟩ := List.cons.inj h
      obtain ⟨c, rfl, h3⟩ := ih (fun hm => ha (by simp [hm])) h2
      exact ⟨c, rfl, h3⟩

/-- **C34.** If the ending is itself a global id, the test is true exactly when the first path ends with the second. -/
theorem C34_endsWithPath (p q : List Str) (hp : ∀ a ∈ p, Plain a) (hq : ∀ a ∈ q, Plain a) :
    idEndsWith (absolute p) (absolute q) = true ↔ ∃ before, p = before ++ q := by
  rw [C34_endsWith]
  constructor
  · rintro ⟨b, h⟩
    cases q with
    | nil => exact ⟨p, by simp⟩
    | cons d q =>
      induction p generalizing b with
      | nil => cases b <;> cases h
      | cons a p ih =>
        cases b with
        | nil => exact ⟨[], absolute_inj hp hq h⟩
        | cons c b =>
          obtain ⟨c', -, h2⟩ := plain_skip (hp a (by simp)) (show a ++ absolute p = b ++ '/' :: (d ++ absolute q) from
            (List.cons.inj h).2)
          obtain ⟨before, rfl⟩ := ih (fun x hx => hp x (by simp [hx])) c' h2
          exact ⟨a :: before, rfl⟩
  · rintro ⟨before, rfl⟩
    exact ⟨absolute before, absolute_append _ _⟩

example : idEndsWith "/client/dev/sig".toList "/dev/sig".toList = true := by decide

/-- **C34, violated.** The ending test, by which a streaming source decides which signal is meant, does not respect
local ids: the id of one signal ends with that of another. -/
theorem C34_violation_endsWith :
    idEndsWith (absolute ["dev".toList, "sig".toList, "temp1".toList]) "temp1".toList = true ∧
    idEndsWith (absolute ["dev".toList, "sig".toList, "temp1".toList]) "1".toList = true ∧
    "1".toList ∉ ["dev".toList, "sig".toList, "temp1".toList] := by decide

end Verif.Component
