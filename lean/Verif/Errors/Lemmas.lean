import Verif.Errors.Spec

/-!
# Facts about scopes
-/

namespace Verif.Errors

open Spec

/-- What holds for the errors of a thread at any time. -/
structure Good (h : Holder) : Prop where
  nonempty : h.list ≠ some []
  fresh : ∀ l, h.list = some l → ∀ s ∈ l, s.id < h.next
  sentinel : ∀ n, h.sentinel = some n → n < h.next
  alone : h.list = none → h.sentinel = none

theorem good_init : Good init := ⟨by simp [init], by simp [init], by simp [init], by simp [init]⟩

theorem good_enter (f l) {h : Holder} (g : Good h) : Good (enter h f l) := by
  refine ⟨by simp [enter], ?_, ?_, by simp [enter]⟩
  · intro k hk s hs
    simp only [enter, Option.some.injEq] at hk
    subst hk
    rcases List.mem_cons.1 hs with rfl | hs
    · simp [enter]
    · cases hl : h.list with
      | none => rw [hl] at hs; simp at hs
      | some k =>
        rw [hl] at hs
        have := g.fresh k hl s hs
        simp only [enter]
        omega
  · intro n hn
    have := g.sentinel n hn
    simp only [enter]
    omega

/-- There is an innermost scope exactly when there is a list. -/
theorem good_current {h : Holder} (g : Good h) : current h = none ↔ h.list = none := by
  unfold current
  cases hl : h.list with
  | none => simp
  | some l =>
    cases l with
    | nil => exact absurd hl g.nonempty
    | cons s r => simp

/-- Leaving does not change what the sentinel is. -/
theorem leave_sentinel (h : Holder) (id : Nat) : (leave h id).sentinel = h.sentinel := by
  unfold leave
  cases h.list <;> rfl

theorem leave_next (h : Holder) (id : Nat) : (leave h id).next = h.next := by
  unfold leave
  cases h.list <;> rfl

/-- Leaving leaves no empty list. -/
theorem leave_nonempty {h : Holder} (g : h.list ≠ some []) (id : Nat) : (leave h id).list ≠ some [] := by
  unfold leave
  cases hl : h.list with
  | none => simp [hl]
  | some l =>
    dsimp only
    split
    · simp
    · rename_i hne
      simpa using hne

/-- The scopes left are scopes of before. -/
theorem leave_subset {h : Holder} {id : Nat} {l : List Scope} (hl : (leave h id).list = some l) :
    ∃ k, h.list = some k ∧ ∀ s ∈ l, s ∈ k := by
  unfold leave at hl
  cases hk : h.list with
  | none => simp [hk] at hl
  | some k =>
    rw [hk] at hl
    dsimp only at hl
    split at hl
    · cases hl
    · cases hl
      exact ⟨k, rfl, fun s hs => List.mem_of_mem_eraseP hs⟩

/-- Changing the errors of the innermost scope keeps the scopes. -/
theorem good_edit (f) {h : Holder} (g : Good h) : Good (edit h f) := by
  unfold edit
  cases hl : h.list with
  | none => exact g
  | some l =>
    cases l with
    | nil => exact g
    | cons s r =>
      refine ⟨by simp, ?_, g.sentinel, by simp⟩
      intro k hk x hx
      cases hk
      rcases List.mem_cons.1 hx with rfl | hx
      · exact g.fresh _ hl s (List.mem_cons_self ..)
      · exact g.fresh _ hl x (List.mem_cons_of_mem _ hx)

theorem good_back {h : Holder} (g : Good h) : Good (back h) := by
  unfold back
  split
  · have := good_enter none (-1) g
    refine ⟨this.nonempty, this.fresh, ?_, by simp [enter]⟩
    intro n hn
    cases hn
    simp [enter]
  · exact g

/-- There is always a scope to record an error in. -/
theorem back_some {h : Holder} (g : Good h) : ∃ s r, (back h).list = some (s :: r) ∧ s.infos = pending h := by
  unfold back pending
  cases hl : h.list with
  | none => simp [current, hl, enter]
  | some l =>
    cases l with
    | nil => exact absurd hl g.nonempty
    | cons s r => simp [current, hl]

theorem good_dropSentinel {h : Holder} (g : Good h) : Good (dropSentinel h) := by
  unfold dropSentinel
  cases hs : h.sentinel with
  | none => exact g
  | some id =>
    refine ⟨leave_nonempty (h := { h with sentinel := none }) g.nonempty id, ?_, ?_, ?_⟩
    · intro l hl s hs
      obtain ⟨k, hk, hsub⟩ := leave_subset hl
      rw [leave_next]
      exact g.fresh k hk s (hsub s hs)
    · intro n hn
      rw [leave_sentinel] at hn
      cases hn
    · intro _
      rw [leave_sentinel]

theorem good_record (i) {h : Holder} (g : Good h) : Good (record h i) := good_edit _ (good_back g)

theorem good_extend (i) {h : Holder} (g : Good h) : Good (extend h i).1 := by
  unfold extend
  split
  · split
    · exact good_edit _ (good_back g)
    · exact good_back g
  · exact good_back g

theorem good_clear {h : Holder} (g : Good h) : Good (clear h).1 := by
  unfold clear
  split
  · exact g
  · dsimp only
    split
    · exact good_dropSentinel (good_edit _ g)
    · exact good_edit _ g

theorem good_getList {h : Holder} (g : Good h) : Good (getList h).1 := by
  unfold getList
  split
  · exact g
  · dsimp only
    split
    · exact good_dropSentinel g
    · exact g

/-- When the sentinel is never left by the user, it is the outermost scope. -/
structure Held (h : Holder) : Prop where
  good : Good h
  /-- the sentinel is the outermost scope, and no other scope is it -/
  there : ∀ n, h.sentinel = some n →
    ∃ pre s, h.list = some (pre ++ [s]) ∧ s.id = n ∧ ∀ x ∈ pre, x.id ≠ n

/-- While the sentinel is innermost it is the only scope. -/
theorem Held.bottom {h : Holder} (g : Held h) {s : Scope} {r : List Scope} (hl : h.list = some (s :: r))
    (hs : h.sentinel = some s.id) : r = [] := by
  obtain ⟨pre, x, hpre, _, hne⟩ := g.there _ hs
  rw [hl] at hpre
  cases pre with
  | nil => simp only [List.nil_append, Option.some.injEq, List.cons.injEq] at hpre; exact hpre.2
  | cons y q =>
    simp only [List.cons_append, Option.some.injEq, List.cons.injEq] at hpre
    exact absurd (by rw [hpre.1]) (hne y (List.mem_cons_self ..))

theorem held_init : Held init := ⟨good_init, by simp [init]⟩

theorem held_edit (f) {h : Holder} (g : Held h) : Held (edit h f) := by
  refine ⟨good_edit f g.good, ?_⟩
  intro n hn
  have hn' : h.sentinel = some n := by
    unfold edit at hn
    split at hn <;> exact hn
  obtain ⟨pre, s, hl, hid, hne⟩ := g.there n hn'
  unfold edit
  rw [hl]
  cases pre with
  | nil => exact ⟨[], { s with infos := f s.infos }, rfl, hid, fun x hx => nomatch hx⟩
  | cons y q =>
    refine ⟨{ y with infos := f y.infos } :: q, s, rfl, hid, ?_⟩
    intro x hx
    rcases List.mem_cons.1 hx with rfl | hx
    · exact hne y (List.mem_cons_self ..)
    · exact hne x (List.mem_cons_of_mem _ hx)

theorem held_enter (f l) {h : Holder} (g : Held h) : Held (enter h f l) := by
  refine ⟨good_enter f l g.good, ?_⟩
  intro n hn
  obtain ⟨pre, s, hk, hid, hne⟩ := g.there n hn
  refine ⟨⟨h.next, f, l, []⟩ :: pre, s, ?_, hid, ?_⟩
  · simp only [enter, hk]; rfl
  · intro x hx
    rcases List.mem_cons.1 hx with rfl | hx
    · have := g.good.sentinel n hn
      dsimp only
      omega
    · exact hne x hx

theorem held_back {h : Holder} (g : Held h) : Held (back h) := by
  refine ⟨good_back g.good, ?_⟩
  unfold back
  split
  · rename_i hc
    intro n hn
    cases hn
    have hl : h.list = none := (good_current g.good).1 (by simpa using hc)
    refine ⟨[], ⟨h.next, none, -1, []⟩, ?_, rfl, fun x hx => nomatch hx⟩
    simp [enter, hl]
  · exact g.there

theorem held_dropSentinel {h : Holder} (g : Held h) : Held (dropSentinel h) := by
  refine ⟨good_dropSentinel g.good, ?_⟩
  unfold dropSentinel
  cases hs : h.sentinel with
  | none => intro n hn; rw [hs] at hn; cases hn
  | some id => intro n hn; rw [leave_sentinel] at hn; cases hn

/-- Erasing another scope keeps the outermost one. -/
theorem eraseP_last {s : Scope} {id : Nat} (hne : s.id ≠ id) : ∀ pre : List Scope,
    (pre ++ [s]).eraseP (fun x => x.id == id) = pre.eraseP (fun x => x.id == id) ++ [s] := by
  intro pre
  induction pre with
  | nil => simp [hne]
  | cons y q ih =>
    by_cases hy : y.id = id
    · simp [hy]
    · simp [hy, ih]

theorem held_leave {h : Holder} (g : Held h) {id : Nat} (hne : h.sentinel ≠ some id) : Held (leave h id) := by
  have there : ∀ n, (leave h id).sentinel = some n →
      ∃ pre s, (leave h id).list = some (pre ++ [s]) ∧ s.id = n ∧ ∀ x ∈ pre, x.id ≠ n := by
    intro n hn
    rw [leave_sentinel] at hn
    obtain ⟨pre, s, hl, hid, hpre⟩ := g.there n hn
    refine ⟨pre.eraseP fun x => x.id == id, s, ?_, hid, fun x hx => hpre x (List.mem_of_mem_eraseP hx)⟩
    unfold leave
    rw [hl]
    dsimp only
    rw [eraseP_last (by rintro rfl; exact hne (hn.trans (by rw [hid]))), if_neg (by simp)]
  refine ⟨⟨leave_nonempty g.good.nonempty id, ?_, ?_, ?_⟩, there⟩
  · intro l hl s hs
    obtain ⟨k, hk, hsub⟩ := leave_subset hl
    rw [leave_next]
    exact g.good.fresh k hk s (hsub s hs)
  · intro n hn
    rw [leave_sentinel] at hn
    rw [leave_next]
    exact g.good.sentinel n hn
  · intro hl
    cases hs : (leave h id).sentinel with
    | none => rfl
    | some n =>
      obtain ⟨pre, s, hl', _⟩ := there n hs
      rw [hl] at hl'
      cases hl'

theorem held_step {h : Holder} (g : Held h) (o : Op) : Held (step h o) := by
  cases o with
  | enter f l => exact held_enter f l g
  | leave id =>
    simp only [step]
    split
    · exact g
    · rename_i hne
      exact held_leave g hne
  | record i => exact held_edit _ (held_back g)
  | extend i =>
    simp only [step]
    unfold extend
    split
    · split
      · exact held_edit _ (held_back g)
      · exact held_back g
    · exact held_back g
  | clear =>
    simp only [step]
    unfold clear
    split
    · exact g
    · dsimp only
      split
      · exact held_dropSentinel (held_edit _ g)
      · exact held_edit _ g
  | list =>
    simp only [step]
    unfold getList
    split
    · exact g
    · dsimp only
      split
      · exact held_dropSentinel g
      · exact g

/-- Whatever a thread does, what holds at the start holds at any time. -/
theorem held_steps (ops : List Op) : ∀ {h : Holder}, Held h → Held (steps h ops) := by
  induction ops with
  | nil => intro h g; exact g
  | cons o r ih => intro h g; exact ih (held_step g o)

/-- What holds at any time. -/
theorem held_reached (ops : List Op) : Held (steps init ops) := held_steps ops held_init

/-! ## Recording -/

/-- The errors after one is recorded. -/
theorem pending_record {h : Holder} (g : Good h) (i : Info) : pending (record h i) = kept i :: pending h := by
  obtain ⟨s, r, hb, hs⟩ := back_some g
  simp only [record, edit, hb]
  simp only [pending] at hs ⊢
  rw [hs]
  rfl

/-- The errors after one is passed on. -/
theorem extend_eq {h : Holder} (g : Good h) (i : Info) :
    extend h i = (match pending h with
      | j :: _ => if j.code = i.prev then (record h i, false) else (back h, true)
      | [] => (back h, true)) := by
  obtain ⟨s, r, hb, hs⟩ := back_some g
  unfold extend
  simp only [current, hb, Option.bind_some, List.head?_cons, Option.map_some, hs]
  cases pending h with
  | nil => rfl
  | cons j k => rfl

theorem back_idem {h : Holder} (g : Good h) : back (back h) = back h := by
  obtain ⟨s, r, hb, _⟩ := back_some g
  rw [back]
  simp [current, hb]

theorem back_edit {h : Holder} (g : Good h) (f) : back (edit (back h) f) = edit (back h) f := by
  obtain ⟨s, r, hb, _⟩ := back_some g
  rw [back]
  simp [current, edit, hb]

theorem edit_edit (h : Holder) (f f' : List Info → List Info) : edit (edit h f) f' = edit h fun l => f' (f l) := by
  unfold edit
  cases hl : h.list with
  | none => simp [hl]
  | some l =>
    cases l with
    | nil => simp [hl]
    | cons s r => simp

/-- Passing on an error several times. -/
theorem extendAll_eq {h : Holder} (g : Good h) : ∀ (is : List Info) (i : Info), Linked i.code is →
    extendAll (record h i) is = edit (back h) fun l => (is.map kept).reverse ++ kept i :: l := by
  intro is
  suffices hh : ∀ (is : List Info) (i : Info) (pre : List Info), Linked i.code is →
      extendAll (edit (back h) fun l => kept i :: (pre ++ l)) is
        = edit (back h) fun l => (is.map kept).reverse ++ kept i :: (pre ++ l) by
    intro i hi
    exact hh is i [] hi
  intro is
  induction is with
  | nil => intro i pre _; rfl
  | cons j r ih =>
    intro i pre hl
    obtain ⟨hp, hne, hr⟩ := hl
    have g' : Good (edit (back h) fun l => kept i :: (pre ++ l)) := good_edit _ (good_back g)
    have hpend : pending (edit (back h) fun l => kept i :: (pre ++ l)) = kept i :: (pre ++ pending h) := by
      obtain ⟨s, q, hb, hs⟩ := back_some g
      simp only [edit, hb]
      simp only [pending] at hs ⊢
      rw [hs]
    simp only [extendAll, extend_eq g', hpend]
    rw [if_pos (show (kept i).code = j.prev from hp.symm)]
    simp only [record, back_edit g, edit_edit]
    have := ih j (kept i :: pre) hr
    simp only [List.cons_append] at this
    simp only [List.map_cons, List.reverse_cons, List.append_assoc, List.cons_append, List.nil_append]
    exact this

/-- Clearing takes away an error with what was raised from it. -/
theorem clearLast_chain (i : Info) (hi : i.prev = 0) : ∀ (is : List Info) (c : Nat) (l : List Info),
    (∀ j ∈ is, j.prev ≠ 0) → clearLast (is ++ i :: l) c = (l, i.code) := by
  intro is
  induction is with
  | nil => intro c l _; simp [clearLast, hi, success]
  | cons j r ih =>
    intro c l hj
    have hne : j.prev ≠ success := hj j (List.mem_cons_self ..)
    simp only [List.cons_append, clearLast]
    rw [if_neg hne]
    exact ih j.code l fun k hk => hj k (List.mem_cons_of_mem _ hk)

theorem linked_prev {c : Nat} {is : List Info} (h : Linked c is) : ∀ j ∈ is, j.prev ≠ 0 := by
  induction is generalizing c with
  | nil => intro j hj; cases hj
  | cons i r ih =>
    intro j hj
    rcases List.mem_cons.1 hj with rfl | hj
    · exact h.2.1
    · exact ih h.2.2 j hj

/-! ## Clearing -/

/-- Clearing inside a scope. -/
theorem clear_eq {h : Holder} {s : Scope} {r : List Scope} (hl : h.list = some (s :: r)) :
    clear h = (if h.sentinel = some s.id ∧ (clearLast s.infos success).1 = []
        then dropSentinel (edit h fun _ => (clearLast s.infos success).1)
        else edit h fun _ => (clearLast s.infos success).1, (clearLast s.infos success).2) := by
  unfold clear
  simp only [current, hl, Option.bind_some, List.head?_cons]

/-- Clearing an error with what was raised from it. -/
theorem clear_recorded {h : Holder} (gh : Held h) (i : Info) (hi : i.prev = 0) (is : List Info)
    (hl : Linked i.code is) :
    (clear (extendAll (record h i) is)).2 = i.code ∧
    pending (clear (extendAll (record h i) is)).1 = pending h ∧
    (h.list = none → Nothing (clear (extendAll (record h i) is)).1) ∧
    (pending h ≠ [] ∨ InGuard h → Same h (clear (extendAll (record h i) is)).1) := by
  have g := gh.good
  rw [extendAll_eq g is i hl]
  have hc : ∀ l, clearLast ((is.map kept).reverse ++ kept i :: l) success = (l, i.code) := fun l =>
    clearLast_chain (kept i) hi _ success l (by
      intro j hj
      simp only [List.mem_reverse, List.mem_map] at hj
      obtain ⟨k, hk, rfl⟩ := hj
      exact linked_prev hl k hk)
  cases hls : h.list with
  | none =>
    have hb : (back h).list = some [⟨h.next, none, -1, []⟩] ∧ (back h).sentinel = some h.next := by
      simp [back, current, hls, enter]
    have he : (edit (back h) fun l => (is.map kept).reverse ++ kept i :: l).list
        = some [⟨h.next, none, -1, (is.map kept).reverse ++ kept i :: []⟩] := by
      simp only [edit, hb.1]
    have hsn : (edit (back h) fun l => (is.map kept).reverse ++ kept i :: l).sentinel = some h.next := by
      simp only [edit, hb.1, hb.2]
    rw [clear_eq he]
    simp only [hc, hsn, and_self, if_true, edit_edit]
    have hd : Nothing (dropSentinel (edit (back h) fun _ => [])) := by
      have h1 : (edit (back h) fun _ => []) = ⟨some [⟨h.next, none, -1, []⟩], some h.next, (back h).next⟩ := by
        simp only [edit, hb.1, hb.2]
      rw [h1]
      simp [dropSentinel, leave, Nothing]
    refine ⟨trivial, ?_, fun _ => hd, ?_⟩
    · simp only [pending, hd.1, hls]
    · rintro (hp | ⟨s, r, hs, _⟩)
      · simp [pending, hls] at hp
      · rw [hls] at hs; cases hs
  | some l =>
    cases l with
    | nil => exact absurd hls g.nonempty
    | cons s r =>
      have hb : back h = h := by simp [back, current, hls]
      rw [hb]
      have he : (edit h fun l => (is.map kept).reverse ++ kept i :: l).list
          = some ({ s with infos := (is.map kept).reverse ++ kept i :: s.infos } :: r) := by
        simp only [edit, hls]
      have hsn : (edit h fun l => (is.map kept).reverse ++ kept i :: l).sentinel = h.sentinel := by
        simp only [edit, hls]
      rw [clear_eq he]
      simp only [hc, hsn, edit_edit]
      have hback : (edit h fun _ => s.infos) = h := by
        cases h
        simp only at hls
        subst hls
        rfl
      rw [hback]
      by_cases hcond : h.sentinel = some s.id ∧ s.infos = []
      · rw [if_pos hcond]
        refine ⟨trivial, ?_, ?_, ?_⟩
        · have hlast : pending (dropSentinel h) = [] ∨ r ≠ [] := by
            cases r with
            | nil =>
              refine Or.inl ?_
              simp [dropSentinel, hcond.1, leave, hls, pending]
            | cons _ _ => exact Or.inr (by simp)
          rcases hlast with h1 | h1
          · rw [h1]; simp only [pending, hls]; exact hcond.2.symm
          · exact absurd (gh.bottom hls hcond.1) h1
        · intro hn; cases hn
        · rintro (hp | ⟨s', r', hs, hne⟩)
          · exact absurd (by simp only [pending, hls]; exact hcond.2) hp
          · rw [hls] at hs; cases hs; exact absurd hcond.1 hne
      · rw [if_neg hcond]
        exact ⟨trivial, rfl, fun hn => (by cases hn), fun _ => ⟨rfl, rfl⟩⟩

end Verif.Errors
