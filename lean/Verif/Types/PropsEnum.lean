import Verif.Types.PropsMgr
/-
C123: enumerations.
-/
namespace Verif.Types.Props
open Spec

theorem number_fst : ∀ (l : List Name) (i : Int), (number l i).map (·.1) = l
  | [], _ => rfl
  | _ :: l, i => by simp [number, number_fst l (i + 1)]

theorem number_mem : ∀ (l : List Name) (i j : Int) (s : Name), (s, j) ∈ number l i → i ≤ j ∧ j < i + l.length
  | [], _, _, _, h => by simp [number] at h
  | n :: l, i, j, s, h => by
    unfold number at h
    rcases List.mem_cons.mp h with h1 | h1
    · cases h1; simp; omega
    · have := number_mem l (i + 1) j s h1
      simp only [List.length_cons]; omega

theorem number_inj : ∀ (l : List Name) (i j : Int) (s t : Name), (s, j) ∈ number l i → (t, j) ∈ number l i → s = t
  | [], _, _, _, _, h, _ => by simp [number] at h
  | n :: l, i, j, s, t, h, h' => by
    unfold number at h h'
    rcases List.mem_cons.mp h with h1 | h1 <;> rcases List.mem_cons.mp h' with h2 | h2
    · cases h1; cases h2; rfl
    · cases h1
      have := number_mem l (i + 1) i t h2
      omega
    · cases h2
      have := number_mem l (i + 1) i s h1
      omega
    · exact number_inj l (i + 1) j s t h1 h2

theorem number_ex : ∀ (l : List Name) (i j : Int), i ≤ j → j < i + l.length → ∃ s, (s, j) ∈ number l i
  | [], i, j, h, h' => by simp at h'; omega
  | n :: l, i, j, h, h' => by
    unfold number
    by_cases e : j = i
    · subst e; exact ⟨n, List.mem_cons_self⟩
    · obtain ⟨s, hs⟩ := number_ex l (i + 1) j (by omega) (by simp only [List.length_cons] at h'; omega)
      exact ⟨s, List.mem_cons_of_mem _ hs⟩

theorem countUp_eq (l : List Name) (i : Int) (acc : List (Name × Int)) (vs : List (Name × Int)) (hi : i ≤ maxInt) :
    countUp l i acc = .ok vs ↔
      (l.Nodup ∧ (∀ n ∈ l, n ∉ acc.map (·.1)) ∧ i + l.length ≤ maxInt) ∧ vs = acc ++ number l i := by
  induction l generalizing i acc with
  | nil => simp [countUp, number, hi]; exact eq_comm
  | cons n l ih =>
    unfold countUp
    by_cases h1 : (acc.lookup n).isSome = true
    · rw [if_pos h1]
      constructor
      · intro h; cases h
      · rintro ⟨⟨_, h, _⟩, _⟩
        exfalso
        obtain ⟨v, hv⟩ := Option.isSome_iff_exists.mp h1
        exact h n List.mem_cons_self (List.mem_map.mpr ⟨_, lookup_mem hv, rfl⟩)
    · rw [if_neg h1]
      have h1' : n ∉ acc.map (·.1) := by
        have : acc.lookup n = none := Option.not_isSome_iff_eq_none.mp h1
        have := lookup_none.mp this
        exact this
      by_cases h2 : i = maxInt
      · rw [if_pos h2]
        constructor
        · intro h; cases h
        · rintro ⟨⟨_, _, h⟩, _⟩; simp only [List.length_cons] at h; omega
      · rw [if_neg h2, ih (i + 1) _ (by omega)]
        have hnum : number (n :: l) i = (n, i) :: number l (i + 1) := rfl
        rw [hnum]
        constructor
        · rintro ⟨⟨a, b, c⟩, rfl⟩
          refine ⟨⟨?_, ?_, by simp only [List.length_cons]; omega⟩, by simp⟩
          · rw [List.nodup_cons]
            exact ⟨fun hn => b n hn (by simp), a⟩
          · intro q hq
            rcases List.mem_cons.mp hq with rfl | hq
            · exact h1'
            · intro hx; exact b q hq (by simp only [List.map_append, List.mem_append]; exact .inl hx)
        · rintro ⟨⟨a, b, c⟩, rfl⟩
          rw [List.nodup_cons] at a
          refine ⟨⟨a.2, ?_, by simp only [List.length_cons] at c; omega⟩, by simp⟩
          intro q hq hx
          simp only [List.map_append, List.mem_append, List.map_cons, List.map_nil, List.mem_singleton] at hx
          rcases hx with hx | hx
          · exact b q (List.mem_cons_of_mem _ hq) hx
          · exact a.1 (hx ▸ hq)

/-- C123: an enumeration type from a list of names.  It exists exactly when there are names,
no name is twice and the values stay below the largest integer; the values count up from the
first one. -/
theorem C123_type (n : Name) (l : List Name) (first : Int) (hi : first ≤ 9223372036854775807) (t : Ty) :
    mkEnumType n l first = .ok t ↔
      (l ≠ [] ∧ l.Nodup ∧ first + l.length ≤ 9223372036854775807) ∧ t = .enum n (number l first) := by
  unfold mkEnumType
  by_cases h : l = []
  · rw [if_pos h]
    exact ⟨fun h => (by cases h), fun h' => absurd h h'.1.1⟩
  · rw [if_neg h]
    constructor
    · intro h'
      cases e : countUp l first [] with
      | error er => simp [e] at h'
      | ok vs =>
        simp only [e] at h'
        cases h'
        obtain ⟨⟨a, b, c⟩, d⟩ := (countUp_eq l first [] vs hi).mp e
        exact ⟨⟨h, a, c⟩, by rw [d]; rfl⟩
    · rintro ⟨⟨_, a, c⟩, rfl⟩
      have := (countUp_eq l first [] (number l first) hi).mpr ⟨⟨a, by simp, c⟩, by simp⟩
      rw [this]

theorem find_int (vs : List (Name × Int)) (hk : (vs.map (·.1)).Nodup) (s : Name) (i : Int) (hs : (s, i) ∈ vs)
    (hu : ∀ t, (t, i) ∈ vs → t = s) : ∃ e, vs.find? (fun e => (vs.lookup e.1) == some i) = some e ∧ e.1 = s := by
  cases e : vs.find? (fun e => (vs.lookup e.1) == some i) with
  | none =>
    rw [List.find?_eq_none] at e
    have := e _ hs
    rw [lookup_of_mem hk hs] at this
    simp at this
  | some x =>
    have h1 := List.find?_some e
    simp only [beq_iff_eq] at h1
    exact ⟨x, rfl, hu _ (lookup_mem h1)⟩

/-- C123: every name of such a type gives a value whose number is the number of the name; the
number gives the same value back; and no other name or number gives a value. -/
theorem C123_values (n : Name) (l : List Name) (first : Int) (t : Ty) (hi : first ≤ 9223372036854775807)
    (ht : mkEnumType n l first = .ok t) :
    (∀ s, (∃ v, mkEnum t (.name s) = .ok v) ↔ s ∈ l) ∧
    (∀ i, (∃ v, mkEnum t (.int i) = .ok v) ↔ first ≤ i ∧ i < first + l.length) ∧
    (∀ p v, mkEnum t p = .ok v → ∃ s i, v = .enum n (number l first) s ∧ (s, i) ∈ number l first ∧
      intValue v = .ok i ∧ mkEnum t (.name s) = .ok v ∧ mkEnum t (.int i) = .ok v) := by
  obtain ⟨⟨h1, h2, h3⟩, rfl⟩ := (C123_type n l first hi t).mp ht
  have hk : ((number l first).map (·.1)).Nodup := by rw [number_fst]; exact h2
  have hname : ∀ s i, (s, i) ∈ number l first →
      mkEnum (.enum n (number l first)) (.name s) = .ok (.enum n (number l first) s) := by
    intro s i h
    unfold mkEnum
    dsimp only
    rw [lookup_of_mem hk h]; rfl
  have hint : ∀ s i, (s, i) ∈ number l first →
      mkEnum (.enum n (number l first)) (.int i) = .ok (.enum n (number l first) s) := by
    intro s i h
    obtain ⟨e, he, he'⟩ := find_int _ hk s i h (fun t ht => number_inj l first i t s ht h)
    unfold mkEnum
    dsimp only
    rw [he]
    dsimp only
    rw [he']
  have hval : ∀ s i, (s, i) ∈ number l first → intValue (.enum n (number l first) s) = .ok i := by
    intro s i h
    unfold intValue
    dsimp only
    rw [lookup_of_mem hk h]
  have hex : ∀ s, s ∈ l → ∃ i, (s, i) ∈ number l first := by
    intro s hs
    rw [← number_fst l first] at hs
    obtain ⟨e, he, e1⟩ := List.mem_map.mp hs
    exact ⟨e.2, by rw [← e1]; exact he⟩
  refine ⟨?_, ?_, ?_⟩
  · intro s
    constructor
    · rintro ⟨v, hv⟩
      unfold mkEnum at hv
      dsimp only at hv
      cases e : (number l first).lookup s with
      | none => simp [e] at hv
      | some i =>
        rw [← number_fst l first]
        exact List.mem_map.mpr ⟨_, lookup_mem e, rfl⟩
    · intro hs
      obtain ⟨i, h⟩ := hex s hs
      exact ⟨_, hname s i h⟩
  · intro i
    constructor
    · rintro ⟨v, hv⟩
      unfold mkEnum at hv
      dsimp only at hv
      cases e : (number l first).find? (fun e => ((number l first).lookup e.1) == some i) with
      | none => simp [e] at hv
      | some x =>
        have h := List.find?_some e
        simp only [beq_iff_eq] at h
        exact number_mem _ _ _ _ (lookup_mem h)
    · intro h
      obtain ⟨s, hs⟩ := number_ex l first i h.1 h.2
      exact ⟨_, hint s i hs⟩
  · intro p v hv
    cases p with
    | name s =>
      unfold mkEnum at hv
      dsimp only at hv
      cases e : (number l first).lookup s with
      | none => simp [e] at hv
      | some i =>
        simp only [e, Option.isSome_some, if_true] at hv
        cases hv
        have h := lookup_mem e
        exact ⟨s, i, rfl, h, hval s i h, hname s i h, hint s i h⟩
    | int i =>
      unfold mkEnum at hv
      dsimp only at hv
      cases e : (number l first).find? (fun e => ((number l first).lookup e.1) == some i) with
      | none => simp [e] at hv
      | some x =>
        simp only [e] at hv
        cases hv
        have h := List.find?_some e
        simp only [beq_iff_eq] at h
        have h := lookup_mem h
        exact ⟨x.1, i, rfl, h, hval _ i h, hname _ i h, hint _ i h⟩

/-- C123: an enumeration type from a dictionary: a name gives the value with the number of the
name; a number gives a value with this number. -/
theorem C123_dictionary (n : Name) (vs : List (Name × Int)) (hk : (vs.map (·.1)).Nodup) :
    (∀ s v, mkEnum (.enum n vs) (.name s) = .ok v ↔ v = .enum n vs s ∧ ∃ i, (s, i) ∈ vs ∧ intValue v = .ok i) ∧
    (∀ i, (∃ v, mkEnum (.enum n vs) (.int i) = .ok v) ↔ ∃ s, (s, i) ∈ vs) ∧
    (∀ i v, mkEnum (.enum n vs) (.int i) = .ok v → intValue v = .ok i) := by
  refine ⟨?_, ?_, ?_⟩
  · intro s v
    unfold mkEnum
    dsimp only
    cases e : vs.lookup s with
    | none =>
      constructor
      · intro h; simp at h
      · rintro ⟨rfl, i, h, _⟩
        rw [lookup_of_mem hk h] at e; cases e
    | some i =>
      simp only [Option.isSome_some, if_true]
      constructor
      · intro h
        cases h
        refine ⟨rfl, i, lookup_mem e, ?_⟩
        unfold intValue; dsimp only; rw [e]
      · rintro ⟨rfl, _⟩; rfl
  · intro i
    unfold mkEnum
    dsimp only
    cases e : vs.find? (fun e => (vs.lookup e.1) == some i) with
    | none =>
      constructor
      · rintro ⟨v, h⟩; cases h
      · rintro ⟨s, hs⟩
        rw [List.find?_eq_none] at e
        have := e _ hs
        rw [lookup_of_mem hk hs] at this
        simp at this
    | some x =>
      have h := List.find?_some e
      simp only [beq_iff_eq] at h
      exact ⟨fun _ => ⟨x.1, lookup_mem h⟩, fun _ => ⟨_, rfl⟩⟩
  · intro i v hv
    unfold mkEnum at hv
    dsimp only at hv
    cases e : vs.find? (fun e => (vs.lookup e.1) == some i) with
    | none => simp [e] at hv
    | some x =>
      simp only [e] at hv
      cases hv
      have h := List.find?_some e
      simp only [beq_iff_eq] at h
      unfold intValue
      dsimp only
      rw [h]

example : mkEnumType ['E'] [['a'], ['b'], ['c']] (-1) = .ok (.enum ['E'] [(['a'], -1), (['b'], 0), (['c'], 1)]) := rfl

example : mkEnum (.enum ['E'] [(['a'], -1), (['b'], 0), (['c'], 1)]) (.int 1) =
    .ok (.enum ['E'] [(['a'], -1), (['b'], 0), (['c'], 1)] ['c']) := rfl

end Verif.Types.Props
