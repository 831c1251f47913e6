import Verif.Errors.Lemmas
import Verif.Errors.Demo

/-!
# Scopes and recorded errors
-/

namespace Verif.Errors

open Spec

/-- Inside a guard only the errors of the guard change. -/
theorem run_inside : ∀ (p : Block) (h : Holder) (s : Scope) (r : List Scope), h.list = some (s :: r) →
    s.id < h.next → (∀ n, h.sentinel = some n → n < h.next) → h.sentinel ≠ some s.id →
    (∃ is, (run p h).list = some ({ s with infos := is } :: r)) ∧ (run p h).sentinel = h.sentinel ∧
      h.next ≤ (run p h).next := by
  intro p
  have hedit : ∀ (h : Holder) (s : Scope) (r : List Scope) (f), h.list = some (s :: r) →
      edit h f = { h with list := some ({ s with infos := f s.infos } :: r) } := by
    intro h s r f hl
    simp only [edit, hl]
  have hback : ∀ (h : Holder) (s : Scope) (r : List Scope), h.list = some (s :: r) → back h = h := by
    intro h s r hl
    simp [back, current, hl]
  induction p with
  | done => intro h s r hl _ _ _; exact ⟨⟨s.infos, hl⟩, rfl, Nat.le_refl _⟩
  | record i q ih =>
    intro h s r hl hs hn hne
    have := ih (record h i) { s with infos := i.freeze :: s.infos } r
    simp only [record, hback h s r hl, hedit h s r _ hl] at this
    simp only [run, record, hback h s r hl, hedit h s r _ hl]
    exact this trivial hs hn hne
  | extend i q ih =>
    intro h s r hl hs hn hne
    simp only [run]
    unfold extend
    rw [hback h s r hl]
    simp only [current, hl, Option.bind_some, List.head?_cons, Option.map_some]
    cases hi : s.infos with
    | nil => exact ih h s r hl hs hn hne
    | cons j k =>
      dsimp only
      split
      · rw [hedit h s r _ hl]
        have := ih { h with list := some ({ s with infos := i.freeze :: s.infos } :: r) }
          { s with infos := i.freeze :: s.infos } r rfl hs hn hne
        exact this
      · exact ih h s r hl hs hn hne
  | clear q ih =>
    intro h s r hl hs hn hne
    simp only [run, clear_eq hl]
    rw [if_neg (fun hh => hne hh.1), hedit h s r _ hl]
    exact ih { h with list := some ({ s with infos := (clearLast s.infos success).1 } :: r) }
      { s with infos := (clearLast s.infos success).1 } r rfl hs hn hne
  | list q ih =>
    intro h s r hl hs hn hne
    simp only [run]
    unfold getList
    simp only [current, hl, Option.bind_some, List.head?_cons]
    rw [if_neg hne]
    exact ih h s r hl hs hn hne
  | guarded f l b q ihb ihq =>
    intro h s r hl hs hn hne
    simp only [run]
    have hb := ihb (enter h f l) ⟨h.next, f, l, []⟩ (s :: r) (by simp [enter, hl]) (by simp [enter])
      (fun n h1 => by have := hn n h1; simp only [enter]; omega)
      (fun h1 => by have := hn _ h1; simp at this)
    obtain ⟨⟨is, h1⟩, h2, h3⟩ := hb
    have hleave : leave (run b (enter h f l)) h.next = { run b (enter h f l) with list := some (s :: r) } := by
      unfold leave
      rw [h1]
      simp
    rw [hleave]
    have h3' : h.next ≤ (run b (enter h f l)).next := by simp only [enter] at h3 ⊢; omega
    have h2' : (run b (enter h f l)).sentinel = h.sentinel := h2
    have := ihq { run b (enter h f l) with list := some (s :: r) } s r rfl (by dsimp only; omega)
      (fun n hx => by dsimp only at hx ⊢; rw [h2'] at hx; have := hn n hx; omega)
      (by dsimp only; rw [h2']; exact hne)
    exact ⟨this.1, this.2.1.trans h2', Nat.le_trans h3' this.2.2⟩

/-- C302: whatever a thread did before, whatever it does while it holds a guard, once the guard is released the
errors that were pending before are pending again, in the same scopes. -/
theorem C302_isolated (ops : List Op) (f : Option Text) (l : Int) (body : Block) :
    Same (steps init ops) (run (.guarded f l body .done) (steps init ops)) := by
  have g := (held_reached ops).good
  generalize steps init ops = h at g
  simp only [run]
  have hb := run_inside body (enter h f l) ⟨h.next, f, l, []⟩ (h.list.getD []) rfl (by simp [enter])
    (fun n h1 => by have := g.sentinel n h1; simp only [enter]; omega)
    (fun h1 => by have := g.sentinel _ h1; simp at this)
  obtain ⟨⟨is, h1⟩, h2, _⟩ := hb
  unfold leave
  rw [h1]
  refine ⟨?_, h2⟩
  dsimp only
  simp only [List.eraseP_cons, beq_self_eq_true, cond_true]
  cases hl : h.list with
  | none => simp
  | some k =>
    cases k with
    | nil => exact absurd hl g.nonempty
    | cons s r => simp

example : pending (run (.guarded none (-1) (.record e1 (.clear (.clear (.record e2 .done)))) .done)
    (steps init [.record e1])) = [kept e1] := by decide +kernel

/-- C302: a new guard starts without errors, whatever is pending outside. -/
theorem C302_fresh (env : Env) (h : Holder) (f : Option Text) (l : Int) :
    getInfo env (enter h f l) = (some none, 0) ∧ getMessage env (enter h f l) = (some none, 0) ∧
    (getList (enter h f l)).2 = none := by
  refine ⟨?_, ?_, ?_⟩
  · simp [getInfo, enter, current, Scope.last, success]
  · simp [getMessage, enter, current, Scope.message, success]
  · simp [getList, enter, current]

example : (getInfo rel (steps init [.record e1])).1 ≠ some none := by decide +kernel

/-- The innermost scope. -/
theorem current_of_list {h : Holder} {s : Scope} {r : List Scope} (hl : h.list = some (s :: r)) :
    current h = some s := by simp [current, hl]

/-- There is a scope once an error is recorded. -/
theorem record_list {h : Holder} (g : Good h) (i : Info) :
    ∃ s r, (record h i).list = some (s :: r) ∧ s.infos = kept i :: pending h := by
  obtain ⟨s, r, hb, hs⟩ := back_some g
  refine ⟨{ s with infos := kept i :: s.infos }, r, ?_, by rw [hs]⟩
  simp only [record, edit, hb]
  rfl

/-- C303: an error that was just recorded is the one that is read back: with its code, and, if it is not raised
from another one, the very information recorded. -/
theorem C303_read (env : Env) (ops : List Op) (i : Info) :
    (getInfo env (record (steps init ops) i)).2 = i.code ∧
    (i.prev = 0 → (getInfo env (record (steps init ops) i)).1 = some (some (kept i))) := by
  obtain ⟨s, r, hl, hs⟩ := record_list (held_reached ops).good i
  unfold getInfo
  rw [current_of_list hl]
  dsimp only
  unfold Scope.last
  rw [hs]
  dsimp only
  constructor
  · split
    · rfl
    · split <;> rfl
  · intro h0
    rw [if_pos (show (kept i).prev = success from h0)]

example : (getInfo rel (record (steps init [.record e2, .enter none (-1)]) e1)).1 = some (some (kept e1)) := by
  decide +kernel

/-- C303: an error raised from another one is read back with its own code and the message of the scope, and
without the other one. -/
theorem C303_extended (env : Env) (ops : List Op) (i : Info) (hi : i.prev ≠ 0) (m : Text)
    (hm : (getMessage env (record (steps init ops) i)).1 = some (some m)) :
    ∃ e, (getInfo env (record (steps init ops) i)).1 = some (some e) ∧ e.code = i.code ∧ e.prev = 0 ∧
      e.message = some m := by
  obtain ⟨s, r, hl, hs⟩ := record_list (held_reached ops).good i
  unfold getMessage at hm
  rw [current_of_list hl] at hm
  simp only [Option.some.injEq] at hm
  unfold getInfo
  rw [current_of_list hl]
  simp only [Scope.last, hs]
  rw [if_neg (show (kept i).prev ≠ success from hi), hm]
  exact ⟨_, rfl, rfl, rfl, rfl⟩

example : (getMessage rel (record (steps init [.record e1]) e2)).1 = some (some (t "Invalid value")) := by
  decide +kernel

/-- C303: the list of errors holds the errors pending before, and then the one recorded. -/
theorem C303_list (ops : List Op) (i : Info) :
    (getList (record (steps init ops) i)).2 = some ((pending (steps init ops)).reverse ++ [kept i]) := by
  obtain ⟨s, r, hl, hs⟩ := record_list (held_reached ops).good i
  unfold getList
  rw [current_of_list hl]
  simp [hs]

example : (getList (record (steps init [.record e1]) e2)).2 = some [kept e1, kept e2] := by decide +kernel

/-- C304: clearing takes away the last error together with everything that was raised from it, returns the code
of the original error and leaves the other errors pending.  A thread that had nothing pending has no scope
left. -/
theorem C304_clear (ops : List Op) (i : Info) (hi : i.prev = 0) (is : List Info) (hl : Linked i.code is) :
    (clear (extendAll (record (steps init ops) i) is)).2 = i.code ∧
    pending (clear (extendAll (record (steps init ops) i) is)).1 = pending (steps init ops) ∧
    ((steps init ops).list = none → Nothing (clear (extendAll (record (steps init ops) i) is)).1) ∧
    (pending (steps init ops) ≠ [] ∨ InGuard (steps init ops) →
      Same (steps init ops) (clear (extendAll (record (steps init ops) i) is)).1) :=
  clear_recorded (held_reached ops) i hi is hl

example : Linked e1.code [e2, e3] ∧ e1.prev = 0 := by decide +kernel

example : pending (extendAll (record init e1) [e2, e3]) = [kept e3, kept e2, kept e1] ∧
    (clear (extendAll (record init e1) [e2, e3])).2 = notFound := by decide +kernel

/-- C304: a thread without scopes has nothing to clear. -/
theorem C304_nothing (h : Holder) (hh : Nothing h) : clear h = (h, 0) := by
  unfold clear
  simp [current, hh.1, success]

/-- C312: outside of guards, reading the list of errors takes them away, and nothing is left behind. -/
theorem C312_outside (ops : List Op) (h : ¬ InGuard (steps init ops)) :
    Nothing (getList (steps init ops)).1 := by
  have g := held_reached ops
  generalize steps init ops = x at g h
  cases hl : x.list with
  | none =>
    have : current x = none := (good_current g.good).2 hl
    simp only [getList, this]
    exact ⟨hl, g.good.alone hl⟩
  | some l =>
    cases l with
    | nil => exact absurd hl g.good.nonempty
    | cons s r =>
      have hs : x.sentinel = some s.id := Classical.byContradiction fun hne => h ⟨s, r, hl, hne⟩
      have hr := g.bottom hl hs
      subst hr
      simp only [getList, current_of_list hl, if_pos hs]
      simp [dropSentinel, hs, leave, hl, Nothing]

example : (getList (steps init [.record e1, .record e2])).2 = some [kept e1, kept e2] ∧
    Nothing (getList (steps init [.record e1, .record e2])).1 := by
  exact ⟨by decide +kernel, by decide +kernel, by decide +kernel⟩

/-- C312: inside a guard, reading the list of errors changes nothing. -/
theorem C312_inside (ops : List Op) (h : InGuard (steps init ops)) :
    (getList (steps init ops)).1 = steps init ops := by
  obtain ⟨s, r, hl, hne⟩ := h
  simp only [getList, current_of_list hl, if_neg hne]

example : InGuard (steps init [.enter none (-1), .record e1]) :=
  ⟨_, _, rfl, by decide +kernel⟩

/-- C313: passing on an error that was not recorded is refused.  -/
theorem C313_refused_partial (ops : List Op) (i : Info)
    (h : ∀ j r, pending (steps init ops) = j :: r → j.code ≠ i.prev) :
    (extend (steps init ops) i).2 = true ∧ pending (extend (steps init ops) i).1 = pending (steps init ops) ∧
    ((steps init ops).list ≠ none → (extend (steps init ops) i).1 = steps init ops) := by
  have g := (held_reached ops).good
  generalize steps init ops = x at g h
  have hx : extend x i = (back x, true) := by
    rw [extend_eq g]
    cases hp : pending x with
    | nil => rfl
    | cons j r => dsimp only; rw [if_neg (h j r hp)]
  rw [hx]
  refine ⟨rfl, ?_, ?_⟩
  · obtain ⟨s, r, hb, hs⟩ := back_some g
    rw [← hs]
    simp only [pending, hb]
  · intro hne
    have : (current x).isNone = false := by
      cases hc : current x with
      | none => exact absurd ((good_current g).1 hc) hne
      | some _ => rfl
    simp [back, this]

/-- C313: violated when no scope exists: a scope without errors is left behind, which belongs to nobody. -/
theorem C313_violation_left : (extend init e2).2 = true ∧ ¬ Nothing (extend init e2).1 ∧
    pending (extend init e2).1 = [] := by
  refine ⟨by decide +kernel, ?_, by decide +kernel⟩
  intro h
  exact absurd h.1 (by decide +kernel)

/-- C313: an error raised outside of a guard cannot be passed on inside of it. -/
theorem C313_guard_partial (ops : List Op) (f : Option Text) (l : Int) (i : Info) :
    (extend (enter (steps init ops) f l) i).2 = true := by
  have h := C313_refused_partial (ops ++ [.enter f l]) i
  have hs : steps init (ops ++ [.enter f l]) = enter (steps init ops) f l := by simp [steps, step]
  rw [hs] at h
  exact (h (by intro j r hp; simp [pending, enter] at hp)).1

example : (extend (record init e1) e2).2 = false ∧ (extend (enter (record init e1) none 3) e2).2 = true := by
  decide +kernel

end Verif.Errors
