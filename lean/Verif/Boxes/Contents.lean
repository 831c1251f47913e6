import Verif.Boxes.DictSteps

/-!
# The elements after each act
-/

namespace Verif.Boxes

theorem at_set (l : List (Option Nat)) (i : Nat) (h : i < l.length) (o : Option Nat) (j : Nat) :
    (l.take i ++ o :: l.drop (i + 1))[j]? = if j = i then some o else l[j]? := by
  have e : l.set i o = l.take i ++ o :: l.drop (i + 1) := by
    rw [List.set_eq_take_append_cons_drop, if_pos h]
  rw [← e, List.getElem?_set]
  by_cases q : i = j
  · subst q; simp [h]
  · have : ¬ j = i := fun h => q h.symm
    simp [q, this]

theorem at_insert (l : List (Option Nat)) (i : Nat) (h : i < l.length) (o : Option Nat) (j : Nat) :
    (l.take i ++ o :: l.drop i)[j]? = if j < i then l[j]? else if j = i then some o else l[j - 1]? := by
  have len : (l.take i).length = i := by rw [List.length_take]; omega
  by_cases q : j < i
  · rw [List.getElem?_append_left (by omega), if_pos q, List.getElem?_take_of_lt q]
  · rw [List.getElem?_append_right (by omega), len, if_neg q]
    by_cases e : j = i
    · subst e; simp
    · rw [if_neg e]
      obtain ⟨n, hn⟩ : ∃ n, j - i = n + 1 := ⟨j - i - 1, by omega⟩
      rw [hn, List.getElem?_cons_succ, List.getElem?_drop]
      congr 1
      omega

theorem at_remove (l : List (Option Nat)) (i : Nat) (h : i < l.length) (j : Nat) :
    (l.take i ++ l.drop (i + 1))[j]? = if j < i then l[j]? else l[j + 1]? := by
  have len : (l.take i).length = i := by rw [List.length_take]; omega
  by_cases q : j < i
  · rw [List.getElem?_append_left (by omega), if_pos q, List.getElem?_take_of_lt q]
  · rw [List.getElem?_append_right (by omega), len, if_neg q, List.getElem?_drop]
    congr 1
    omega

theorem at_last (l : List (Option Nat)) (o : Option Nat) (j : Nat) :
    (l ++ [o])[j]? = if j = l.length then some o else l[j]? := by
  by_cases q : j < l.length
  · rw [List.getElem?_append_left q, if_neg (by omega)]
  · rw [List.getElem?_append_right (by omega)]
    by_cases e : j = l.length
    · subst e; simp
    · rw [if_neg e, List.getElem?_eq_none (by simp; omega), List.getElem?_eq_none (by omega)]

theorem at_dropLast (l : List (Option Nat)) (j : Nat) :
    l.dropLast[j]? = if j + 1 = l.length then none else l[j]? := by
  rw [List.dropLast_eq_take, List.getElem?_take]
  by_cases q : j < l.length - 1
  · rw [if_pos q, if_neg (by omega)]
  · rw [if_neg q]
    by_cases e : j + 1 = l.length
    · rw [if_pos e]
    · rw [if_neg e, List.getElem?_eq_none (by omega)]

theorem thenGive_ok_of {cfg : Cfg} {o : Option Nat} {r : Ret} (n : r.lst.own = none) :
    r.thenGive cfg o = r := by
  unfold Ret.thenGive; rw [n]

theorem thenFree_ok_of {cfg : Cfg} {r : Ret} (n : r.lst.own = none) : r.thenFree cfg = r := by
  unfold Ret.thenFree; rw [n]

theorem last_given (l : List (Option Nat)) (h : l ≠ []) : some (l.getLast?.join) = l[l.length - 1]? := by
  rw [List.getLast?_eq_getElem?]
  have : 0 < l.length := List.length_pos_iff.mpr h
  rw [List.getElem?_eq_getElem (by omega), Option.join_some]

theorem at_given (l : List (Option Nat)) (i : Nat) (h : i < l.length) : some (l[i]?).join = l[i]? := by
  rw [List.getElem?_eq_getElem h, Option.join_some]

/-- Which code, which elements. -/
theorem elements (cfg : Cfg) (s : Sys) (op : Op) (on : op.onList = true) :
    (s.lst.own = none → (s.step cfg op).2 = listCode s.lst.frozen s.lst.items.length op)
    ∧ ((s.step cfg op).2 = .ok → Elements s.lst.items (s.step cfg op).1.lst.items op)
    ∧ ((s.step cfg op).2 ≠ .ok → (s.step cfg op).2.calm → (s.step cfg op).1 = s) := by
  cases op with
  | create x => cases on
  | copy x => cases on
  | drop x => cases on
  | get k => cases on
  | set k v => cases on
  | remove k => cases on
  | delete k => cases on
  | clearD => cases on
  | freezeD => cases on
  | renewD b => cases on
  | freeze => exact ⟨fun _ => by simp [listCode, Sys.step, Op.changesList], fun _ => rfl, fun n => absurd rfl n⟩
  | renew b => exact ⟨fun _ => by simp [listCode, Sys.step, Op.changesList], fun _ => rfl, fun n => absurd rfl n⟩
  | getAt i =>
    simp only [Sys.step, Sys.taking, Lst.getAt, listCode, Op.changesList, Bool.and_false]
    split
    · rename_i h
      exact ⟨fun _ => by rw [if_neg (show ¬ i < _ by omega)]; rfl, fun c => (by cases c), fun _ _ => rfl⟩
    · rename_i h
      exact ⟨fun _ => by rw [if_pos (show i < _ by omega)]; rfl, fun _ => rfl, fun n => absurd rfl n⟩
  | setAt i o =>
    simp only [Sys.step, Sys.plain, Lst.setAt, listCode, Op.changesList, Bool.and_true]
    split
    · exact ⟨fun _ => rfl, fun c => (by cases c), fun _ _ => rfl⟩
    · split
      · rename_i h
        exact ⟨fun _ => by rw [if_neg (show ¬ i < _ by omega)], fun c => (by cases c), fun _ _ => rfl⟩
      · rename_i h
        have hi : i < s.lst.items.length := by omega
        refine ⟨fun n => by rw [thenGive_ok_of (by exact n), if_pos hi], fun _ => ?_, fun n c => ?_⟩
        · rw [thenGive_lst]; exact at_set _ _ hi o
        · rcases thenGive_code cfg o ⟨(s.heap.release (s.lst.items[i]?).join).addRef o,
            { s.lst with items := s.lst.items.take i ++ o :: s.lst.items.drop (i + 1) }, .ok, none⟩ rfl
            with e | e | e
          · exact absurd e n
          · exact absurd e c.1
          · exact absurd e c.2
  | insertAt i o =>
    simp only [Sys.step, Sys.plain, Lst.insertAt, listCode, Op.changesList, Bool.and_true]
    split
    · exact ⟨fun _ => rfl, fun c => (by cases c), fun _ _ => rfl⟩
    · split
      · rename_i h
        exact ⟨fun _ => by rw [if_neg (show ¬ i < _ by omega)], fun c => (by cases c), fun _ _ => rfl⟩
      · rename_i h
        have hi : i < s.lst.items.length := by omega
        refine ⟨fun n => by rw [thenGive_ok_of (by exact n), if_pos hi], fun _ => ?_, fun n c => ?_⟩
        · rw [thenGive_lst]; exact at_insert _ _ hi o
        · rcases thenGive_code cfg o ⟨s.heap.addRef o,
            { s.lst with items := s.lst.items.take i ++ o :: s.lst.items.drop i }, .ok, none⟩ rfl
            with e | e | e
          · exact absurd e n
          · exact absurd e c.1
          · exact absurd e c.2
  | pushBack o =>
    simp only [Sys.step, Sys.plain, Lst.pushBack, listCode, Op.changesList, Bool.and_true]
    split
    · exact ⟨fun _ => rfl, fun c => (by cases c), fun _ _ => rfl⟩
    · refine ⟨fun n => by rw [thenGive_ok_of (by exact n)], fun _ => ?_, fun n c => ?_⟩
      · rw [thenGive_lst]; exact at_last _ o
      · rcases thenGive_code cfg o ⟨s.heap.addRef o, { s.lst with items := s.lst.items ++ [o] }, .ok, none⟩
          rfl with e | e | e
        · exact absurd e n
        · exact absurd e c.1
        · exact absurd e c.2
  | pushFront o =>
    simp only [Sys.step, Sys.plain, Lst.pushFront, listCode, Op.changesList, Bool.and_true]
    split
    · exact ⟨fun _ => rfl, fun c => (by cases c), fun _ _ => rfl⟩
    · refine ⟨fun n => by rw [thenGive_ok_of (by exact n)], fun _ => ?_, fun n c => ?_⟩
      · rw [thenGive_lst]; exact ⟨rfl, fun _ => rfl⟩
      · rcases thenGive_code cfg o ⟨s.heap.addRef o, { s.lst with items := o :: s.lst.items }, .ok, none⟩
          rfl with e | e | e
        · exact absurd e n
        · exact absurd e c.1
        · exact absurd e c.2
  | moveBack o =>
    simp only [Sys.step, Sys.giving, Lst.moveBack, listCode, Op.changesList, Bool.and_true]
    split
    · exact ⟨fun _ => rfl, fun c => (by cases c), fun _ _ => rfl⟩
    · refine ⟨fun n => by rw [thenGive_ok_of (by exact n)], fun _ => ?_, fun n c => ?_⟩
      · rw [thenGive_lst]; exact at_last _ o
      · rcases thenGive_code cfg o ⟨s.heap, { s.lst with items := s.lst.items ++ [o] }, .ok, none⟩
          rfl with e | e | e
        · exact absurd e n
        · exact absurd e c.1
        · exact absurd e c.2
  | moveFront o =>
    simp only [Sys.step, Sys.giving, Lst.moveFront, listCode, Op.changesList, Bool.and_true]
    split
    · exact ⟨fun _ => rfl, fun c => (by cases c), fun _ _ => rfl⟩
    · refine ⟨fun n => by rw [thenGive_ok_of (by exact n)], fun _ => ?_, fun n c => ?_⟩
      · rw [thenGive_lst]; exact ⟨rfl, fun _ => rfl⟩
      · rcases thenGive_code cfg o ⟨s.heap, { s.lst with items := o :: s.lst.items }, .ok, none⟩
          rfl with e | e | e
        · exact absurd e n
        · exact absurd e c.1
        · exact absurd e c.2
  | popBack =>
    simp only [Sys.step, Sys.taking, Lst.popBack, listCode, Op.changesList, Bool.and_true]
    split
    · exact ⟨fun _ => rfl, fun c => (by cases c), fun _ _ => rfl⟩
    · split
      · rename_i h
        exact ⟨fun _ => by rw [h]; rfl, fun c => (by cases c), fun _ _ => rfl⟩
      · rename_i h
        have h' : ¬ s.lst.items.length = 0 := fun e => h (List.length_eq_zero_iff.mp e)
        refine ⟨fun n => by rw [thenFree_ok_of (by exact n), if_neg h'], fun _ => ?_, fun n c => ?_⟩
        · rw [thenFree_lst]; exact at_dropLast _
        · rcases thenFree_code cfg ⟨s.heap, { s.lst with items := s.lst.items.dropLast }, .ok,
            s.lst.items.getLast?.join⟩ rfl with e | e
          · exact absurd e n
          · exact absurd e c.2
  | popFront =>
    simp only [Sys.step, Sys.taking, Lst.popFront, listCode, Op.changesList, Bool.and_true]
    split
    · exact ⟨fun _ => rfl, fun c => (by cases c), fun _ _ => rfl⟩
    · split
      · rename_i h
        exact ⟨fun _ => by rw [h]; rfl, fun c => (by cases c), fun _ _ => rfl⟩
      · rename_i o os h
        refine ⟨fun n => by rw [thenFree_ok_of (by exact n), h]; rfl, fun _ => ?_, fun n c => ?_⟩
        · rw [thenFree_lst, h]; exact fun _ => rfl
        · rcases thenFree_code cfg ⟨s.heap, { s.lst with items := os }, .ok, o⟩ rfl with e | e
          · exact absurd e n
          · exact absurd e c.2
  | removeAt i =>
    simp only [Sys.step, Sys.taking, Lst.removeAt, listCode, Op.changesList, Bool.and_true]
    split
    · exact ⟨fun _ => rfl, fun c => (by cases c), fun _ _ => rfl⟩
    · split
      · rename_i h
        exact ⟨fun _ => by rw [if_neg (show ¬ i < _ by omega)], fun c => (by cases c), fun _ _ => rfl⟩
      · rename_i h
        have hi : i < s.lst.items.length := by omega
        split
        · exact ⟨fun _ => by rw [if_pos hi], fun _ => at_remove _ _ hi, fun n => absurd rfl n⟩
        · exact ⟨fun _ => by rw [if_pos hi], fun _ => at_remove _ _ hi, fun n => absurd rfl n⟩
  | deleteAt i =>
    simp only [Sys.step, Sys.plain, Lst.deleteAt, listCode, Op.changesList, Bool.and_true]
    split
    · exact ⟨fun _ => rfl, fun c => (by cases c), fun _ _ => rfl⟩
    · split
      · rename_i h
        exact ⟨fun _ => by rw [if_neg (show ¬ i < _ by omega)], fun c => (by cases c), fun _ _ => rfl⟩
      · rename_i h
        have hi : i < s.lst.items.length := by omega
        split
        · exact ⟨fun _ => by rw [if_pos hi], fun _ => at_remove _ _ hi, fun n => absurd rfl n⟩
        · rename_i ho
          split
          · exact ⟨fun _ => rfl, fun _ => at_remove _ _ hi, fun n => absurd rfl n⟩
          · refine ⟨fun n => ?_, fun _ => at_remove _ _ hi, fun n c => ?_⟩
            · rw [ho] at n; cases n
            · rcases setOwner_code cfg (s.heap.release (s.lst.items[i]?).join) (s.lst.items[i]?).join none
                with e | e
              · exact absurd e n
              · exact absurd e c.2
  | clear =>
    simp only [Sys.step, Sys.plain, Lst.clear, listCode, Op.changesList, Bool.and_true]
    split
    · exact ⟨fun _ => rfl, fun c => (by cases c), fun _ _ => rfl⟩
    · split
      · exact ⟨fun _ => rfl, fun _ => rfl, fun n => absurd rfl n⟩
      · rename_i ho
        split
        · exact ⟨fun _ => rfl, fun _ => rfl, fun n => absurd rfl n⟩
        · rename_i hc
          refine ⟨fun n => ?_, fun c => absurd c hc, fun _ c => ?_⟩
          · rw [ho] at n; cases n
          · exfalso
            have : ∀ (os : List (Option Nat)) (h : Heap),
                (freeAll cfg h os).2 = .ok ∨ (freeAll cfg h os).2 = .taken := by
              intro os
              induction os with
              | nil => exact fun _ => .inl rfl
              | cons o os ih =>
                intro h
                simp only [freeAll]
                split
                · exact ih _
                · exact setOwner_code cfg h o none
            rcases this s.lst.items s.heap with e | e
            · exact hc e
            · exact c.2 e

/-- What a successful act gives the client. -/
theorem gives (cfg : Cfg) (s : Sys) (op : Op) (o : Option Nat) (g : given s.lst.items op = some o)
    (c : (s.step cfg op).2 = .ok) : (s.step cfg op).1.mine = gain s.mine o := by
  cases op with
  | getAt i =>
    revert c
    simp only [Sys.step, Sys.taking, Lst.getAt]
    split
    · exact fun c => by cases c
    · rename_i h
      intro _
      have := at_given s.lst.items i (by omega)
      rw [show s.lst.items[i]? = some o from g] at this ⊢
      rfl
  | removeAt i =>
    revert c
    simp only [Sys.step, Sys.taking, Lst.removeAt]
    split
    · exact fun c => by cases c
    · split
      · exact fun c => by cases c
      · rw [show s.lst.items[i]? = some o from g]
        split <;> exact fun _ => rfl
  | popBack =>
    revert c
    simp only [Sys.step, Sys.taking, Lst.popBack]
    split
    · exact fun c => by cases c
    · split
      · exact fun c => by cases c
      · rename_i h
        intro c
        rw [if_pos c]
        have e := last_given s.lst.items h
        rw [show s.lst.items[s.lst.items.length - 1]? = some o from g] at e
        have : ∀ r : Ret, (r.thenFree cfg).out = r.out := fun r => by
          unfold Ret.thenFree
          split
          · rfl
          · split <;> rfl
        rw [this]
        simp only
        rw [Option.some.inj e]
  | popFront =>
    revert c
    simp only [Sys.step, Sys.taking, Lst.popFront]
    split
    · exact fun c => by cases c
    · split
      · exact fun c => by cases c
      · rename_i o' os h
        intro c
        rw [if_pos c]
        have : ∀ r : Ret, (r.thenFree cfg).out = r.out := fun r => by
          unfold Ret.thenFree
          split
          · rfl
          · split <;> rfl
        rw [this]
        have g' : s.lst.items[0]? = some o := g
        rw [h] at g'
        simp only [List.getElem?_cons_zero, Option.some.injEq] at g'
        rw [← g']
  | setAt i o' => cases g
  | insertAt i o' => cases g
  | pushBack o' => cases g
  | pushFront o' => cases g
  | moveBack o' => cases g
  | moveFront o' => cases g
  | deleteAt i => cases g
  | clear => cases g
  | freeze => cases g
  | renew b => cases g
  | create x => cases g
  | copy x => cases g
  | drop x => cases g
  | get k => cases g
  | set k v => cases g
  | remove k => cases g
  | delete k => cases g
  | clearD => cases g
  | freezeD => cases g
  | renewD b => cases g

end Verif.Boxes
